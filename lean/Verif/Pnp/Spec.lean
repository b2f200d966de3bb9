import Verif.Pnp.Model
import Verif.Node.Spec

/-!
What the plug-and-play properties are about, in terms of the bytes of a message (`uavcan.pnp.NodeIDAllocationData` 1.0 and 2.0).
-/

namespace Verif.Pnp

open Verif.Node

/-- Byte `i` of a payload. Bytes after the end are zeros. -/
def byte (payload : List Byte) (i : Nat) : Byte := payload.getD i 0

/-- The number in the `n` bytes from byte `i` on, least significant byte first. -/
def numberAt (payload : List Byte) : Nat → Nat → Nat
  | _, 0 => 0
  | i, n + 1 => (byte payload i).toNat + 256 * numberAt payload (i + 1) n

/-- The `n` bytes from byte `i` on. -/
def slice (payload : List Byte) (i n : Nat) : List Byte := (List.range n).map fun k => byte payload (i + k)

/-- A number as `n` bytes, least significant byte first. -/
def numberBytes : Nat → Nat → List Byte
  | 0, _ => []
  | n + 1, x => BitVec.ofNat 8 x :: numberBytes n (x / 256)

/-- The two versions of the allocation message. -/
inductive Version where
  | one | two
deriving DecidableEq

/-- The subject of the allocation messages. -/
def Version.subject : Version → SubjectId
  | .one => 8166#13
  | .two => 8165#13

/-- Whether a payload is an allocation message. Version 1 has an array of at most one node ID; its length is byte 6. -/
def wellFormed : Version → List Byte → Bool
  | .one, p => (byte p 6).toNat ≤ 1
  | .two, _ => true

/-- Whether an allocation message is about the node with this unique ID: version 1 has the 48-bit hash of the unique ID, the lower 48 bits
of its CRC-64/WE, in bytes 0 to 5, version 2 has the
unique ID in bytes 2 to 17. -/
def isAbout : Version → List Byte → UniqueId → Bool
  | .one, p, u => numberAt p 0 6 = (crc64we u.1).toNat % 2 ^ 48
  | .two, p, u => slice p 2 16 = u.1

/-- The node ID in an allocation message: in bytes 7 and 8 if there is one in version 1, in bytes 0 and 1 in version 2. -/
def granted : Version → List Byte → Option Nat
  | .one, p => if byte p 6 = 1 then some (numberAt p 7 2) else none
  | .two, p => some (numberAt p 0 2)

/-- A request of the node with this unique ID: version 1 has the hash and no node ID, version 2 has the node ID 0 and the unique ID. -/
def request : Version → UniqueId → List Byte
  | .one, u => numberBytes 6 ((crc64we u.1).toNat % 2 ^ 48) ++ [0]
  | .two, u => [0, 0] ++ u.1

/-- The reply to a request that grants a node ID: the hash or the unique ID of the request, and the node ID. -/
def reply : Version → List Byte → Nat → List Byte
  | .one, p, id => slice p 0 6 ++ [1] ++ numberBytes 2 id
  | .two, p, id => numberBytes 2 id ++ slice p 2 16

/-- The conversions of a node ID type are inverse to each other, and the valid IDs are the numbers up to the maximum. -/
structure IdOps.Lawful {N : Type} (ids : IdOps N) : Prop where
  tryFrom_iff : ∀ v n, ids.tryFrom v = some n ↔ ids.toU16 n = v
  valid_iff : ∀ v, (ids.tryFrom v).isSome = true ↔ v.toNat ≤ (ids.toU16 ids.max).toNat

variable {N Tid Trk E : Type}

/-- A message for the node with unique ID `u` that grants it the node ID `id`. -/
def grants (ids : IdOps N) (v : Version) (p : List Byte) (u : UniqueId) (id : N) : Prop :=
  wellFormed v p = true ∧ isAbout v p u = true ∧ granted v p = some (ids.toU16 id).toNat

/-! The functions of a client have the version as a type parameter. -/

/-- `PnpClientServiceHandler::handle_message` of a client with this version. -/
def clientHandles (ids : IdOps N) (v : Version) (u : UniqueId) (node : CoreNode N Tid Trk) (header : MessageHeader N Tid) (p : List Byte) :
    Option (Handled Unit N Tid Trk) :=
  match v with
  | .one => ClientService.handleMessage (version1 ids) u node header p
  | .two => ClientService.handleMessage (version2 ids) u node header p

/-- `PnpClientService::new` with this version. -/
def clientNew (ops : TidOps Tid) (ids : IdOps N) (v : Version) (mtu : Nat) (node : CoreNode N Tid Trk) (env : Env E) :
    NewAnswer E × CoreNode N Tid Trk × List (RxCall N) :=
  match v with
  | .one => ClientService.new ops (version1 ids) mtu node env
  | .two => ClientService.new ops (version2 ids) mtu node env

/-- `PnpClientService::send_request` of a client with this version. -/
def clientSends (ops : TidOps Tid) (ids : IdOps N) (v : Version) (u : UniqueId) (node : CoreNode N Tid Trk) (env : Env E) : Out N Tid Trk E :=
  match v with
  | .one => ClientService.sendRequest ops (version1 ids) u node env
  | .two => ClientService.sendRequest ops (version2 ids) u node env

/-- `PnpClient::new` with this version. -/
def freeNew (ops : TidOps Tid) (ids : IdOps N) (v : Version) (u : UniqueId) (env : Env E) : Option (PnpClient Tid) × List (RxCall N) :=
  match v with
  | .one => PnpClient.new ops (version1 ids) u env
  | .two => PnpClient.new ops (version2 ids) u env

/-- `PnpClient::send_request` of a client with this version. -/
def freeSends (ops : TidOps Tid) (ids : IdOps N) (v : Version) (c : PnpClient Tid) (mtu : Nat) (env : Env E) :
    Option (PnpClient Tid × List (Transfer N Tid)) :=
  match v with
  | .one => PnpClient.sendRequest ops (version1 ids) c mtu env
  | .two => PnpClient.sendRequest ops (version2 ids) c mtu env

/-- `PnpClient::receive` of a client with this version. -/
def freeReceives (ids : IdOps N) (v : Version) (c : PnpClient Tid) (r : Received N Tid E) : Got N E :=
  match v with
  | .one => PnpClient.receive (version1 ids) c r
  | .two => PnpClient.receive (version2 ids) c r

/-- The largest allocation message of a version. -/
def Version.maxSize : Version → Nat
  | .one => 9
  | .two => 18

/-! Servers. -/

/-- The unique ID of the first call of `assign` for the node ID `i`. -/
def owner (ids : IdOps N) (history : List (ServerOp N Tid E)) (i : Nat) : Option UniqueId :=
  history.findSome? fun op => match op with
    | .assign id u => if (ids.toU16 id).toNat = i then some u else none
    | _ => none

/-- What may happen to a server after `before` if every node ID comes from `assign`: another call of `assign` with an ID that the server has; an
allocation message that is about a node with an ID from `assign`; a heartbeat of a node with such an ID; any other message; any use of the node,
except for `stop_publishing` on the subjects of the server. -/
def Allowed (ids : IdOps N) (C : Nat) (before : List (ServerOp N Tid E)) : ServerOp N Tid E → Prop
  | .assign id _ => (ids.toU16 id).toNat < C
  | .message _ header p =>
    (∀ v : Version, header.subject = v.subject → wellFormed v p = true → ∃ i u, owner ids before i = some u ∧ isAbout v p u = true) ∧
      (header.subject = Verif.App.heartbeatSubject → ∀ id, header.source = some id → (owner ids before (ids.toU16 id).toNat).isSome = true)
  | .other op => ∀ v : Version, ¬ op.stopsPublishing v.subject

/-- A history in which every node ID comes from `assign`. -/
def Orderly (ids : IdOps N) (C : Nat) (history : List (ServerOp N Tid E)) : Prop :=
  ∀ before op after, history = before ++ op :: after → Allowed ids C before op

/-- The payloads that a server sends for a message after a history; `none` if it has panicked. -/
def answerTo (ops : TidOps Tid) (tops : TrackerOps N Tid Trk) (ids : IdOps N) (start : Server × CoreNode N Tid Trk) (history : List (ServerOp N Tid E))
    (message : ServerOp N Tid E) : Option (List (List Byte)) :=
  (Server.run ops tops ids start history).bind fun w => (Server.step ops tops ids w message).map fun r => r.2.map (·.payload)

end Verif.Pnp
