import Verif.Basic

/-!
Model of `canadensis_core/src/crc.rs`.
-/

namespace Verif.Crc

/-! ### CRC-16/CCITT-FALSE -/

/-- `CRC16_INIT`, canadensis_core/src/crc.rs L148. -/
def crc16Init : BitVec 16 := 0xffff#16

/-- `CRC16_POLY`, canadensis_core/src/crc.rs L150. -/
def crc16Poly : BitVec 16 := 0x1021#16

/-- One iteration of the bit loop in `Crc16CcittFalse::digest`, canadensis_core/src/crc.rs L170-176. -/
def step16 (v : BitVec 16) : BitVec 16 :=
  if v &&& 0x8000#16 ≠ 0#16 then (v <<< 1) ^^^ crc16Poly else v <<< 1

/-- `f` applied `n` times: the `for _ in 0..n` loops of canadensis_core/src/crc.rs L126 and L170. -/
def iter {α : Type} (f : α → α) : Nat → α → α
  | 0, a => a
  | n + 1, a => iter f n (f a)

/-- `Crc16CcittFalse::digest`, canadensis_core/src/crc.rs L168-177. -/
def digest16 (v : BitVec 16) (b : Byte) : BitVec 16 :=
  iter step16 8 (v ^^^ ((b.setWidth 16) <<< 8))

/-- `Crc16CcittFalse::digest_bytes`, canadensis_core/src/crc.rs L180-182. -/
def digestBytes16 (v : BitVec 16) (bs : List Byte) : BitVec 16 :=
  bs.foldl digest16 v

/-- `Crc16CcittFalse::new`, `digest_bytes`, `get_crc` in sequence,
canadensis_core/src/crc.rs L162-187. -/
def crc16 (bs : List Byte) : BitVec 16 := digestBytes16 crc16Init bs

/-! ### CRC-32C -/

/-- `CRC32_XOR`, canadensis_core/src/crc.rs L100. -/
def crc32Xor : BitVec 32 := 0xffffffff#32

/-- `CRC32_REFLECTED_POLY`, canadensis_core/src/crc.rs L101. -/
def crc32Poly : BitVec 32 := 0x82f63b78#32

/-- One iteration of the bit loop in `Crc32c::digest`, canadensis_core/src/crc.rs L126-132. -/
def step32 (v : BitVec 32) : BitVec 32 :=
  if v &&& 0x1#32 ≠ 0#32 then (v >>> 1) ^^^ crc32Poly else v >>> 1

/-- `Crc32c::digest`, canadensis_core/src/crc.rs L124-133. -/
def digest32 (v : BitVec 32) (b : Byte) : BitVec 32 :=
  iter step32 8 (v ^^^ b.setWidth 32)

/-- `Crc32c::digest_bytes`, canadensis_core/src/crc.rs L136-138. -/
def digestBytes32 (v : BitVec 32) (bs : List Byte) : BitVec 32 :=
  bs.foldl digest32 v

/-- `Crc32c::new`, canadensis_core/src/crc.rs L114-116. -/
def crc32Init : BitVec 32 := crc32Xor

/-- `Crc32c::get_crc`, canadensis_core/src/crc.rs L119-121. -/
def getCrc32 (v : BitVec 32) : BitVec 32 := v ^^^ crc32Xor

/-- `Crc32c::new`, `digest_bytes`, `get_crc` in sequence, canadensis_core/src/crc.rs L112-138. -/
def crc32c (bs : List Byte) : BitVec 32 := getCrc32 (digestBytes32 crc32Init bs)

/-! ### CrcTracker -/

/-- `struct CrcTracker`, canadensis_core/src/crc.rs L9-16. -/
structure Tracker where
  crc : BitVec 32
  lastFour : BitVec 32
  processed : BitVec 8
deriving DecidableEq, Repr

/-- `CrcTracker::new`, canadensis_core/src/crc.rs L20-26. -/
def Tracker.new : Tracker := ⟨crc32Init, 0#32, 0#8⟩

/-- `u8::saturating_add(1)` as used in canadensis_core/src/crc.rs L42. -/
def satInc (x : BitVec 8) : BitVec 8 := if x = 255#8 then x else x + 1#8

/-- `CrcTracker::digest`, canadensis_core/src/crc.rs L32-44. -/
def Tracker.digest (t : Tracker) (b : Byte) : Option Byte × Tracker :=
  let out : Option Byte := if t.processed ≥ 4#8 then some (t.lastFour.setWidth 8) else none
  let crc := match out with
    | some o => digest32 t.crc o
    | none => t.crc
  (out, { crc := crc
          lastFour := ((b.setWidth 32) <<< 24) ||| (t.lastFour >>> 8)
          processed := satInc t.processed })

/-- Repeated calls of `CrcTracker::digest` (canadensis_core/src/crc.rs L32-44); collects the returned bytes. -/
def Tracker.digestAll (t : Tracker) : List Byte → List Byte × Tracker
  | [] => ([], t)
  | b :: bs =>
    let (o, t1) := t.digest b
    let (os, t2) := t1.digestAll bs
    (o.toList ++ os, t2)

/-- `CrcTracker::correct`, canadensis_core/src/crc.rs L47-49. -/
def Tracker.correct (t : Tracker) : Bool :=
  t.processed ≥ 4#8 && getCrc32 t.crc == t.lastFour

end Verif.Crc
