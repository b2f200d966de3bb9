import Verif.End.Spec

/-!
Vocabulary for calls: requests of a client to a server, and the responses of the server.
-/

namespace Verif.End

open Verif.Node Verif.Dsdl Verif.Enc Verif.Can

/-- The requests for a service to a node among the transfers. -/
def requestsTo {N Tid : Type} [DecidableEq N] (service : ServiceId) (server : N) (ts : List (Transfer N Tid)) : List (Transfer N Tid) :=
  ts.filter fun t => match t.header with
    | .request h => decide (h.service = service ∧ h.destination = server)
    | _ => false

/-- The responses of a service to a node among the transfers. -/
def responsesTo {N Tid : Type} [DecidableEq N] (service : ServiceId) (client : N) (ts : List (Transfer N Tid)) : List (Transfer N Tid) :=
  ts.filter fun t => match t.header with
    | .response h => decide (h.service = service ∧ h.destination = client)
    | _ => false

/-- The program of the client: it sends requests with values of the type `m` to the server, and may do anything else, also send requests to other nodes, but does not stop sending requests for
that service and keeps its node ID. The second list are the values for whose bytes there was memory (64 bytes are always there). -/
inductive Requests {N Tid E : Type} (m : Message) (service : ServiceId) (server : N) : List (Node.Op N Tid E) → List Val → Prop where
  | done : Requests m service server [] []
  | value {env v loopback rest vs} : (64 < (m.sizeBits v + 7) / 8 → env.alloc = true) → Requests m service server rest vs →
      Requests m service server (.sendRequest env service (.of m.writer v) server loopback :: rest) (v :: vs)
  | noMemory {env v loopback rest vs} : 64 < (m.sizeBits v + 7) / 8 → env.alloc = false → Requests m service server rest vs →
      Requests m service server (.sendRequest env service (.of m.writer v) server loopback :: rest) vs
  | other {op rest vs} : ¬ op.stopsRequests service → (∀ env payload loopback, op ≠ .sendRequest env service payload server loopback) →
      (∀ env id, op ≠ .setNodeId env id) → Requests m service server rest vs → Requests m service server (op :: rest) vs

/-- The program of the server: it sends responses with values of the type `m` to the client, and may do anything else, also send responses to other nodes, but keeps its node ID. The second list
are the tokens and values of the responses for whose bytes there was memory. -/
inductive Responds {N Tid E : Type} (m : Message) (service : ServiceId) (client : N) :
    List (Node.Op N Tid E) → List (ResponseToken N Tid × Val) → Prop where
  | done : Responds m service client [] []
  | value {env token timeout v rest vs} : token.service = service → token.client = client → (64 < (m.sizeBits v + 7) / 8 → env.alloc = true) →
      Responds m service client rest vs → Responds m service client (.sendResponse env token timeout (.of m.writer v) :: rest) ((token, v) :: vs)
  | noMemory {env token timeout v rest vs} : 64 < (m.sizeBits v + 7) / 8 → env.alloc = false → Responds m service client rest vs →
      Responds m service client (.sendResponse env token timeout (.of m.writer v) :: rest) vs
  | other {op rest vs} : (∀ env token timeout payload, op = .sendResponse env token timeout payload → ¬ (token.service = service ∧ token.client = client)) →
      (∀ env id, op ≠ .setNodeId env id) → Responds m service client rest vs → Responds m service client (op :: rest) vs

/-- The token that a handler gets together with this request (C53). -/
def TokenFor {N Tid : Type} (t : Transfer N Tid) (token : ResponseToken N Tid) : Prop :=
  ∃ q, t.header = .request q ∧ token = ⟨q.service, q.source, q.transferId, q.priority⟩

/-- What the server did with a request: it received this transfer and answered with this response, which carries the value. -/
structure Reply where
  received : CanTransfer
  response : Item
  value : Val

/-- One call: the request, its value, and what the server answered, if it did. -/
structure Exchange where
  request : Item
  value : Val
  answer : Option Reply

/-- The frames of responses that arrive at the client. -/
def Exchange.arrived (e : Exchange) : List Frame :=
  match e.answer with
  | some a => a.response.arrived
  | none => []

/-- Of the responses to 30 requests in a row, at least one frame arrives. -/
def NotAllUnanswered (exchanges : List Exchange) : Prop := ∀ i, i + 30 ≤ exchanges.length → ∃ e ∈ (exchanges.drop i).take 30, e.arrived ≠ []

/-- A frame that is not a loopback copy and is addressed to another node. -/
def elsewhere (id : NodeId) : Can.Op → Bool
  | .frame f _ =>
    match readFrame f with
    | some (h, _) => !f.loopback && (match h.destination with | some d => decide (d ≠ id) | none => false)
    | none => false
  | _ => false

/-- What the user of the client gets for a request: at most one response; nothing if the server did not answer or no frame of the answer arrives; if all its frames arrive, a transfer that
tells the transfer ID of the request, the service and the server, and from which `deserialize` makes a value that is equal to the one of the server. -/
structure Answered (m : Message) (service : ServiceId) (client server : NodeId) (e : Exchange) (out : List CanTransfer) : Prop where
  atMostOne : out.length ≤ 1
  header : ∀ t ∈ out, ∃ now priority, t.header = .response ⟨now, e.request.transfer.header.transferId, priority, service, server, client⟩
  lost : e.arrived = [] → out = []
  whole : ∀ a, e.answer = some a → a.response.Whole false → ∃ t w c, out = [t] ∧ m.deserialize (ReadCursor.new t.payload) = some (.ok w, c) ∧ Same w a.value

end Verif.End
