import Verif.Reg.Spec

/-!
The example program that reads all registers of another node: `canadensis/examples/register_client.rs`. Its exchange with one of the register servers of
`Verif.Reg.Model` goes through the bytes of the requests and responses; the transport between the two nodes is not part of this model.

`none` is a panic.
-/

namespace Verif.Reg

open Verif.Dsdl Verif.Enc Verif.Node Verif.App Verif.Pnp

/-- `RegisterState` (canadensis/examples/register_client.rs L326-333). -/
inductive ReadState where
  | waiting (transferId : BitVec 5)
  | done (value : Value)
deriving DecidableEq, Repr

/-- `RegisterHandler` (canadensis/examples/register_client.rs L190-211) without the ID of the target node, the tokens and the times. The `BTreeMap` is the list of
its entries, in the order of the names; a name is the bytes of a `String`. -/
structure Client where
  next : BitVec 16
  registers : List (List Byte × ReadState)
  listed : Bool
  done : Bool
deriving DecidableEq, Repr

/-- `Ord for str` (std; the keys of the map in canadensis/examples/register_client.rs L196): strings are ordered by their bytes. -/
def nameLt (a b : List Byte) : Bool := decide (a.map BitVec.toNat < b.map BitVec.toNat)

/-- `BTreeMap::insert` (std; used in canadensis/examples/register_client.rs L250-253). -/
def insertRegister (name : List Byte) (s : ReadState) : List (List Byte × ReadState) → List (List Byte × ReadState)
  | [] => [(name, s)]
  | e :: rest =>
    if e.1 = name then (name, s) :: rest
    else if nameLt name e.1 then (name, s) :: e :: rest
    else e :: insertRegister name s rest

/-- `find` of the first entry that waits for this transfer ID, and the assignment to its state (canadensis/examples/register_client.rs L282-292). -/
def finish (transferId : BitVec 5) (value : Value) : List (List Byte × ReadState) → Option (List (List Byte × ReadState))
  | [] => none
  | e :: rest => if e.2 = .waiting transferId then some ((e.1, .done value) :: rest) else (finish transferId value rest).map (e :: ·)

/-- `matches!(state, RegisterState::Done(_))` (canadensis/examples/register_client.rs L319). -/
def ReadState.isDone : ReadState → Bool
  | .done _ => true
  | .waiting _ => false

/-- `RegisterHandler::check_if_done` (canadensis/examples/register_client.rs L313-323). -/
def Client.checkIfDone (c : Client) : Client :=
  if c.listed && c.registers.all fun e => e.2.isDone then { c with done := true } else c

/-- A request of the client (canadensis/examples/register_client.rs L235-246, L255-262): the service and the payload. -/
structure ClientRequest where
  service : ServiceId
  payload : List Byte
deriving DecidableEq, Repr

/-- `node.send_request(..).unwrap()` of an access request that reads a register (canadensis/examples/register_client.rs L235-246). There is memory, and the
queue takes the request: `none` otherwise. -/
def askValue (name : List Byte) : Option ClientRequest :=
  match doSerialize (.of accessRequestType.writer (AccessRequest.val ⟨name, .empty⟩)) true with
  | .bytes b => some ⟨accessService, b⟩
  | _ => none

/-- `node.send_request(..).unwrap()` of a list request (canadensis/examples/register_client.rs L125-130, L255-262). There is memory, and the queue takes the
request: `none` otherwise. -/
def askName (index : BitVec 16) : Option ClientRequest :=
  match doSerialize (.of listRequestType.writer (.record [.num index.toNat])) true with
  | .bytes b => some ⟨listService, b⟩
  | _ => none

/-- `RegisterHandler::handle_response` (canadensis/examples/register_client.rs L214-309): what it returns, the handler afterwards, and the requests. `checks` are
the overflow checks, `utf8` is whether `str::from_utf8` accepts the bytes, and `accessId` is the transfer ID that the node gives to an access request now. -/
def Client.handleResponse (checks : Bool) (utf8 : List Byte → Bool) (c : Client) (accessId : BitVec 5) (header : ServiceHeader (BitVec 7) (BitVec 5))
    (payload : List Byte) : Option (Bool × Client × List ClientRequest) :=
  if header.service = listService then
    match parse listResponseType listResponseOfVal payload with
    | .panic => none
    | .error => some (false, c, [])
    | .ok name =>
      if utf8 name then
        if name = [] then some (true, { c with listed := true }.checkIfDone, [])
        else
          match askValue name, askName c.next with
          | some a, some l =>
            if checks && c.next = 65535 then none
            else some (true, { c with registers := insertRegister name (.waiting accessId) c.registers, next := c.next + 1 }, [a, l])
          | _, _ => none
      else some (true, { c with done := true }, [])
  else if header.service = accessService then
    match parse accessResponseType AccessResponse.ofVal payload with
    | .panic => none
    | .error => some (false, c, [])
    | .ok response => some (true, { c with registers := (finish header.transferId response.value c.registers).getD c.registers }.checkIfDone, [])
  else some (false, c, [])

/-- What the program prints when it is done (canadensis/examples/register_client.rs L168-176): the registers in the order of the map. -/
def Client.printed (c : Client) : List (List Byte × Value) :=
  c.registers.filterMap fun e => match e.2 with | .done v => some (e.1, v) | .waiting _ => none

/-! ### The exchange with a server -/

/-- A request on its way (no counterpart in /repo). -/
structure Asked where
  service : ServiceId
  transferId : BitVec 5
  payload : List Byte
deriving DecidableEq, Repr

/-- The client, the requests it has sent so far, and the registers of the server (no counterpart in /repo). -/
structure Exchange (σ : Type) where
  client : Client
  sent : List Asked
  block : List (Register σ)

/-- The transfer ID of the next request to a service: the requests to one node are counted for each service, modulo 32 (`Requester` and `TransferIdFixedMap`,
canadensis/src/requester.rs; property C52). The program sends requests to one node only. -/
def idFor (sent : List Asked) (service : ServiceId) : BitVec 5 := BitVec.ofNat 5 (sent.countP fun q => q.service = service)

/-- The requests after more requests were sent (no counterpart in /repo). -/
def addRequests (sent : List Asked) (requests : List ClientRequest) : List Asked :=
  requests.foldl (fun sent q => sent ++ [⟨q.service, idFor sent q.service, q.payload⟩]) sent

/-- The start of the program: it asks for the name with index 0 (canadensis/examples/register_client.rs L123-146). -/
def Exchange.start {σ : Type} (block : List (Register σ)) : Option (Exchange σ) :=
  (askName 0).map fun l => ⟨⟨1, [], false, false⟩, addRequests [] [l], block⟩

/-- The server: which of the two it is, its node and what the environment does there, and the IDs of the server and of the client (no counterpart in /repo). -/
structure ServerSide (Trk E : Type) where
  style : Style
  node : CoreNode (BitVec 7) (BitVec 5) Trk
  env : Env E
  id : BitVec 7
  clientId : BitVec 7
  priority : Priority

variable {σ Trk E : Type}

/-- The answer to the request with number `k` arrives (no counterpart in /repo: the network and the loop in canadensis/examples/register_client.rs L150-166, which ends
when the client is done; that it also ends after a time without answers is left out). The server handles the request when the answer is needed. -/
def Exchange.answer (checks : Bool) (utf8 : List Byte → Bool) (server : ServerSide Trk E) (x : Exchange σ) (k : Nat) : Option (Exchange σ) :=
  if x.client.done then some x
  else
    match x.sent[k]? with
    | none => some x
    | some q =>
      match server.style.handles Register.ops utf8 x.block server.node server.env ⟨q.service, server.clientId, q.transferId, server.priority⟩
        ⟨0, q.transferId, server.priority, q.service, server.clientId, server.id⟩ q.payload with
      | none => none
      | some out =>
        match out.sent with
        | [t] =>
          (x.client.handleResponse checks utf8 (idFor x.sent accessService) ⟨0, q.transferId, server.priority, q.service, server.id, server.clientId⟩ t.payload).map
            fun r => ⟨r.2.1, addRequests x.sent r.2.2, out.state⟩
        | _ => some { x with block := out.state }

/-- Answers to the requests with these numbers arrive, in this order (no counterpart in /repo). -/
def Exchange.run (checks : Bool) (utf8 : List Byte → Bool) (server : ServerSide Trk E) (block : List (Register σ)) (ks : List Nat) : Option (Exchange σ) :=
  (Exchange.start block).bind fun x => ks.foldlM (fun x k => x.answer checks utf8 server k) x

end Verif.Reg
