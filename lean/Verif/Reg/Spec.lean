import Verif.Reg.Model
import Verif.Pnp.Spec
import Verif.Enc.BitArrayProps

/-!
What the register properties are about: what a register holds and which values it takes, and the bytes of the messages of `uavcan.register.Access` and
`uavcan.register.List`.
-/

namespace Verif.Reg

open Verif.Enc Verif.Node Verif.Pnp

/-! ### Contents -/

/-- What a `Value` holds. It is the value, except that an array of bits is the list of its bits. -/
inductive Content where
  | empty
  | string (bytes : List Byte)
  | unstructured (bytes : List Byte)
  | bits (bits : List Bool)
  | numbers (k : Kind) (values : List (BitVec k.width))
deriving DecidableEq, Repr

/-- What a value holds. -/
def Value.content : Value → Content
  | .empty => .empty
  | .string b => .string b
  | .unstructured b => .unstructured b
  | .bit a => .bits (bitsA a)
  | .numbers k vs => .numbers k vs

/-- How many numbers of a kind fit in a value: 256 bytes. -/
def Kind.limit (k : Kind) : Nat := 2048 / k.width

/-- A content of 256 bytes or less. -/
def Content.fits : Content → Bool
  | .empty => true
  | .string b => b.length ≤ 256
  | .unstructured b => b.length ≤ 256
  | .bits l => l.length ≤ 2048
  | .numbers k vs => vs.length ≤ k.limit

/-- A value of the Rust type: the arrays are not longer than their capacity, and a bit array has space for its bits. -/
def Value.valid : Value → Prop
  | .bit a => a.bytes.length = 256 ∧ a.bitLength ≤ 2048
  | v => v.content.fits = true

/-! ### What registers hold -/

/-- What a register type holds as a content. An array of more numbers than fit is cut. -/
def Cell.content : Cell → Content
  | .number k x => .numbers k [x]
  | .numbers k xs => .numbers k (xs.take k.limit)
  | .string b => .string b
  | .unstructured b => .unstructured b
  | .bool b => .bits [b]
  | .bools bs => .bits bs

/-- The value of the same type, and of the same length if it is an array, that holds the content. -/
def Cell.holding (c : Cell) (new : Content) : Option Cell :=
  match c, new with
  | .number k _, .numbers k' [y] => if h : k' = k then some (.number k (h ▸ y)) else none
  | .numbers k xs, .numbers k' ys => if h : k' = k then (if ys.length = xs.length then some (.numbers k (h ▸ ys)) else none) else none
  | .string _, .string b => some (.string b)
  | .unstructured _, .unstructured b => some (.unstructured b)
  | .bool _, .bits [b] => some (.bool b)
  | .bools bs, .bits l => if l.length = bs.length then some (.bools l) else none
  | _, _ => none

/-- The Rust type of the value can hold it, and it can be read: strings have at most 256 bytes, and arrays of `bool` at most 2048 elements. -/
def Cell.fits : Cell → Bool
  | .string b => b.length ≤ 256
  | .unstructured b => b.length ≤ 256
  | .bools bs => bs.length ≤ 2048
  | _ => true

namespace Register
variable {σ : Type}

/-- What a register holds. -/
def content : Register σ → Content
  | .simple _ _ c => c.content
  | .validated _ _ c _ _ => c.content
  | .fixed _ v => .string v

/-- Whether a register takes a new content: it must be of the same type and length, and the validator must accept it. -/
def accepts : Register σ → Content → Bool
  | .simple _ _ c, new => (c.holding new).isSome
  | .validated _ _ c s f, new =>
    match c.holding new with
    | some c => (f s c).1
    | none => false
  | .fixed _ _, _ => false

/-- The register can be read. -/
def fits : Register σ → Bool
  | .simple _ _ c => c.fits
  | .validated _ _ c _ _ => c.fits
  | .fixed _ v => v.length ≤ 256

/-- The value in a register satisfies `P`; in a validated register the validator accepts only such values. -/
def Guarded (P : Cell → Prop) : Register σ → Prop
  | .validated _ _ c _ f => P c ∧ ∀ s c, (f s c).1 = true → P c
  | _ => True

end Register

/-! ### Bytes -/

/-- The number of a kind in a message. -/
def Kind.tag : Kind → Byte
  | .integer64 => 4
  | .integer32 => 5
  | .integer16 => 6
  | .integer8 => 7
  | .natural64 => 8
  | .natural32 => 9
  | .natural16 => 10
  | .natural8 => 11
  | .real64 => 12
  | .real32 => 13
  | .real16 => 14

/-- The bytes of a number. -/
def Kind.bytes (k : Kind) : Nat := k.width / 8

/-- The bytes of the length of an array: 2 if there can be 256 elements. -/
def Kind.lengthBytes (k : Kind) : Nat := if k.limit < 256 then 1 else 2

/-- Bit `i` of a payload from byte `start` on, least significant bit of each byte first. -/
def bit (payload : List Byte) (start i : Nat) : Bool := (byte payload (start + i / 8)).getLsbD (i % 8)

/-- Bits as bytes, least significant bit of each byte first, zeros at the end. -/
def bitBytes (bits : List Bool) : List Byte :=
  (List.range ((bits.length + 7) / 8)).map fun i => BitVec.ofNat 8 (bitsVal (fun j => bits.getD (8 * i + j) false) 8)

/-- The bytes of a value: a tag, and the length and the elements of the array if it is not empty. -/
def Content.encode : Content → List Byte
  | .empty => [0]
  | .string b => [1] ++ numberBytes 2 b.length ++ b
  | .unstructured b => [2] ++ numberBytes 2 b.length ++ b
  | .bits l => [3] ++ numberBytes 2 l.length ++ bitBytes l
  | .numbers k vs => [k.tag] ++ numberBytes k.lengthBytes vs.length ++ vs.flatMap fun x => numberBytes k.bytes x.toNat

/-- What is in a payload in the place of a value. -/
inductive Decoded where
  | content (c : Content)
  | malformed
  | bitOverflow
deriving DecidableEq

/-- The value in a payload from byte `i` on. It is malformed if the tag is unknown, or if there are more elements than fit. -/
def contentAt (p : List Byte) (i : Nat) : Decoded :=
  match (byte p i).toNat with
  | 0 => .content .empty
  | 1 => if numberAt p (i + 1) 2 ≤ 256 then .content (.string (slice p (i + 3) (numberAt p (i + 1) 2))) else .malformed
  | 2 => if numberAt p (i + 1) 2 ≤ 256 then .content (.unstructured (slice p (i + 3) (numberAt p (i + 1) 2))) else .malformed
  | 3 => if numberAt p (i + 1) 2 ≤ 2048 then .content (.bits ((List.range (numberAt p (i + 1) 2)).map (bit p (i + 3)))) else .bitOverflow
  | t =>
    match [Kind.integer64, .integer32, .integer16, .integer8, .natural64, .natural32, .natural16, .natural8, .real64, .real32, .real16][t - 4]? with
    | none => .malformed
    | some k =>
      if numberAt p (i + 1) k.lengthBytes ≤ k.limit then
        .content (.numbers k ((List.range (numberAt p (i + 1) k.lengthBytes)).map fun j =>
          BitVec.ofNat k.width (numberAt p (i + 1 + k.lengthBytes + k.bytes * j) k.bytes)))
      else .malformed

/-- The name in an access request: its length is in the first byte. -/
def requestName (p : List Byte) : List Byte := slice p 1 (byte p 0).toNat

/-- The value in an access request, after the name. -/
def requestValue (p : List Byte) : Decoded := contentAt p (1 + (byte p 0).toNat)

/-- An access request. -/
def requestBytes (name : List Byte) (value : Content) : List Byte := [BitVec.ofNat 8 name.length] ++ name ++ value.encode

/-- An access response: a timestamp of 7 bytes that is zero, a byte with the flags `mutable` (bit 0) and `persistent` (bit 1), and the value. -/
def responseBytes (access : Access) (value : Content) : List Byte :=
  List.replicate 7 0 ++ [(if access.isMutable then 1 else 0) + (if access.persistent then 2 else 0)] ++ value.encode

/-- A list response: the name with its length before it. -/
def listResponseBytes (name : List Byte) : List Byte := [BitVec.ofNat 8 name.length] ++ name

variable {R N Tid Trk E : Type}

/-- The response that a node with this ID hands to the transmitter: to the client that sent the request, with the transfer ID and priority of the request, to
be sent within one second. Without memory, a payload of more than 64 bytes is not sent. -/
def answer (id : N) (env : Env E) (token : ResponseToken N Tid) (payload : List Byte) : List (Transfer N Tid) :=
  if payload.length ≤ 64 ∨ env.alloc = true then
    [⟨.response ⟨env.now.plus (BitVec.ofNat 32 1000000), token.transfer, token.priority, token.service, id, token.client⟩, false, payload⟩]
  else []

/-- The two register servers in /repo: `RegisterHandler` and `RegisterServerService`. -/
inductive Style where
  | handler | service
deriving DecidableEq

/-- How a server answers an access request. -/
def Style.access (s : Style) (ops : RegisterOps R) (utf8 : List Byte → Bool) : List R → AccessRequest → Option (AccessResponse × List R) :=
  match s with
  | .handler => RegisterHandler.access ops utf8
  | .service => RegisterServer.access ops utf8

/-- What a server makes of a request. -/
def Style.handles (s : Style) (ops : RegisterOps R) (utf8 : List Byte → Bool) (block : List R) (node : CoreNode N Tid Trk) (env : Env E)
    (token : ResponseToken N Tid) (header : ServiceHeader N Tid) (payload : List Byte) : Option (Handled (List R) N Tid Trk) :=
  handleRequest (s.access ops utf8) ops block node env token header payload

/-- The first register with a name: its index. -/
def firstNamed (ops : RegisterOps R) (name : List Byte) : List R → Option Nat
  | [] => none
  | r :: rest => if ops.name r = name then some 0 else (firstNamed ops name rest).map (· + 1)

/-! ### A store of values -/

/-- A register as a client sees it. -/
structure Entry where
  name : List Byte
  access : Access
  content : Content
deriving DecidableEq

/-- A register without a validator, as a client sees it. -/
def Register.entry {σ : Type} (r : Register σ) : Entry := ⟨r.name, r.access, r.content⟩

/-- A register without a validator that can be read completely. -/
def Register.plain {σ : Type} : Register σ → Bool
  | .simple _ _ (.numbers k xs) => xs.length ≤ k.limit
  | .simple _ _ c => c.fits
  | .validated _ _ _ _ _ => false
  | .fixed _ v => v.length ≤ 256

/-- Contents of the same type; arrays of numbers and of bits must also have the same length. -/
def Content.sameForm : Content → Content → Bool
  | .string _, .string _ => true
  | .unstructured _, .unstructured _ => true
  | .bits a, .bits b => a.length = b.length
  | .numbers k a, .numbers k' b => k = k' && a.length = b.length
  | _, _ => false

/-- An access to a store: the first entry with the name gets the content if it is mutable and has the same form. The answer is the access and the content of the
entry after that; for an unknown name, no access and nothing. -/
def storeAccess (name : List Byte) (c : Content) : List Entry → List Entry × Access × Content
  | [] => ([], ⟨false, false⟩, .empty)
  | e :: rest =>
    if e.name = name then
      let new := if e.access.isMutable && e.content.sameForm c then c else e.content
      (⟨e.name, e.access, new⟩ :: rest, e.access, new)
    else
      let (entries, answer) := storeAccess name c rest
      (e :: entries, answer)

/-- The store after a request. -/
def storeAfter (utf8 : List Byte → Bool) (entries : List Entry) : BlockOp N Tid E → List Entry
  | .request _ _ header p =>
    if header.service = 384#9 && utf8 (requestName p) then
      match requestValue p with
      | .content c => (storeAccess (requestName p) c entries).1
      | _ => entries
    else entries
  | _ => entries

end Verif.Reg
