import Verif.Core.Bytes
import Verif.Pnp.Model

/-!
The program that writes a checksum into an image: `canadensis_write_crc/src/main.rs`, and the library that reads it there: `canadensis_crc/src/lib.rs`.

The crate `object`, which finds symbols and sections in a file, is not in /repo: what it tells of a file is left to the environment.
-/

namespace Verif.Tool

open Verif.Pnp

/-- What the crate `object` tells of a section: its address, and the start and size of its part of the file, if it has one. (Not in /repo; used in `canadensis_write_crc/src/main.rs` L79-117.) -/
structure Section where
  address : BitVec 64
  fileRange : Option (BitVec 64 × BitVec 64)

/-- What the crate `object` tells of a symbol: its name, if this is text; its address; and the index of its section, if there is one. (Not in /repo; used in `canadensis_write_crc/src/main.rs` L79-117.) -/
structure Symbol where
  name : Option String
  address : BitVec 64
  sectionIndex : Option Nat

/-- What the crate `object` tells of a file. (Not in /repo; used in `canadensis_write_crc/src/main.rs` L79-117.) -/
structure ObjFile where
  symbols : List Symbol
  sectionAt : Nat → Option Section

/-- Why no checksum is written. (`canadensis_write_crc/src/main.rs` L36-121.) -/
inductive CrcError where
  | read | notAnObject | notInASection | noSuchSection | notInTheFile | noSymbol | write | rename
deriving DecidableEq, Repr

/-- A result or a panic. -/
inductive Res (α : Type) where
  | ok (a : α)
  | err (e : CrcError)
  | panic
deriving DecidableEq, Repr

/-- `?`. -/
def Res.bind {α β : Type} (r : Res α) (f : α → Res β) : Res β :=
  match r with
  | .ok a => f a
  | .err e => .err e
  | .panic => .panic

/-- `find_symbol_file_offset` (`canadensis_write_crc/src/main.rs` L86-116). `checks` are the overflow checks. -/
def findOffset (checks : Bool) (o : ObjFile) (name : String) : Res (BitVec 64) :=
  match o.symbols.find? fun s => s.name = some name with
  | none => .err .noSymbol
  | some symbol =>
    match symbol.sectionIndex with
    | none => .err .notInASection
    | some i =>
      match o.sectionAt i with
      | none => .err .noSuchSection
      | some s =>
        match s.fileRange with
        | none => .err .notInTheFile
        | some (start, _) =>
          if checks && (decide (symbol.address.toNat < s.address.toNat) || decide (2 ^ 64 ≤ start.toNat + (symbol.address - s.address).toNat)) then .panic
          else .ok (start + (symbol.address - s.address))

/-- `find_file_offsets` (`canadensis_write_crc/src/main.rs` L76-82). -/
def findOffsets (parse : List Byte → Option ObjFile) (checks : Bool) (binary : List Byte) : Res (BitVec 64 × BitVec 64) :=
  match parse binary with
  | none => .err .notAnObject
  | some o => (findOffset checks o "CANADENSIS_CRC").bind fun crc => (findOffset checks o "CANADENSIS_CRC_VALID").bind fun valid => .ok (crc, valid)

/-- `binary[offset..][..bytes.len()].copy_from_slice(bytes)`: `none` is a panic. -/
def overwrite (binary : List Byte) (offset : Nat) (bytes : List Byte) : Option (List Byte) :=
  if offset + bytes.length ≤ binary.length then some (binary.take offset ++ bytes ++ binary.drop (offset + bytes.length)) else none

/-- `u64::to_le_bytes`. -/
def u64Bytes (x : BitVec 64) : List Byte := leBytes 8 x.toNat

/-- `u64::from_le_bytes`, as a processor that stores the least significant byte first reads a `u64`. -/
def u64OfBytes (bytes : List Byte) : BitVec 64 := BitVec.ofNat 64 (leNat bytes)

/-- `pad_to_8_bytes` (`canadensis_write_crc/src/main.rs` L150-162). -/
def padTo8 (data : List Byte) : List Byte :=
  if data.length % 8 = 0 then data else data ++ List.replicate (8 - data.length % 8) 0#8

/-- `crc_64_we` (`canadensis_write_crc/src/main.rs` L142-148). -/
def fileCrc (data : List Byte) : BitVec 64 := crc64we (padTo8 data)

/-- What `run` makes of the binary (`canadensis_write_crc/src/main.rs` L40-50): `clear_crc` (L60-62), `write_crc_valid` (L70-72), `crc_64_we` and `write_crc` (L64-68). -/
def addCrc (parse : List Byte → Option ObjFile) (checks : Bool) (binary : List Byte) : Res (List Byte) :=
  (findOffsets parse checks binary).bind fun offsets =>
    match overwrite binary offsets.1.toNat (List.replicate 8 0#8) with
    | none => .panic
    | some cleared =>
      match overwrite cleared offsets.2.toNat [1#8] with
      | none => .panic
      | some marked =>
        match overwrite marked offsets.1.toNat (u64Bytes (fileCrc marked)) with
        | none => .panic
        | some written => .ok written

/-- `get_crc` (`canadensis_crc/src/lib.rs` L29-41) of a program whose variables `CANADENSIS_CRC` and `CANADENSIS_CRC_VALID` have the values that are at these places of the image. -/
def getCrc (image : List Byte) (crc valid : Nat) : Option (BitVec 64) :=
  if image[valid]? = some 1#8 then some (u64OfBytes ((image.drop crc).take 8)) else none

/-! ### The file -/

/-- The path of a file: the directory, the name up to the last dot, and what is after it. -/
structure Path where
  directory : String
  stem : String
  ext : Option String
deriving DecidableEq

/-- `Path::with_extension`. -/
def Path.withExtension (p : Path) (ext : String) : Path := { p with ext := some ext }

/-- The files. (`canadensis_write_crc/src/main.rs` L36-58.) -/
abbrev Files := Path → Option (List Byte)

/-- What happens to the operations on files. A write that fails leaves some of the bytes in the file, or leaves the file as it is. (`canadensis_write_crc/src/main.rs` L36-58.) -/
structure FileEnv where
  writeFails : Option (Option (List Byte))
  renameFails : Bool

/-- `run` (`canadensis_write_crc/src/main.rs` L36-58): the result, and the states that the files are in, one after the other; the first one is the state at the beginning. A write is the state when the
file is empty, and the state after it. `rename` is atomic. -/
def runTool (parse : List Byte → Option ObjFile) (checks : Bool) (env : FileEnv) (files : Files) (path : Path) : Res Unit × List Files :=
  match files path with
  | none => (.err .read, [files])
  | some binary =>
    match addCrc parse checks binary with
    | .err e => (.err e, [files])
    | .panic => (.panic, [files])
    | .ok written =>
      let temporary := path.withExtension "tmp"
      let set (p : Path) (c : Option (List Byte)) (files : Files) : Files := fun q => if q = p then c else files q
      match env.writeFails with
      | some none => (.err .write, [files])
      | some (some part) => (.err .write, [files, set temporary (some []) files, set temporary (some part) files])
      | none =>
        let states := [files, set temporary (some []) files, set temporary (some written) files]
        if env.renameFails then (.err .rename, states)
        else (.ok (), states ++ [set path (some written) (if temporary = path then files else set temporary none files)])

end Verif.Tool
