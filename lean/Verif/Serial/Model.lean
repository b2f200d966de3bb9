import Verif.Core.Subscriptions
import Verif.Cobs.Props
import Verif.Hdr.Props

/-!
Model of `canadensis_serial/src/rx.rs`, `header_collector.rs`, `tx.rs` and `lib.rs`.

`oom` arguments tell that the allocator fails in a call. `none` is a panic. Sizes are natural numbers: overflow of `usize` is
not modelled.
-/

namespace Verif.Serial

open Verif.Cobs (Unescaper)
open Verif.Crc (Tracker)
open Verif.Hdr (NodeId16 Tid64 RawHeader TransportHeader)

/-- `Header<SerialTransport>` (`canadensis_serial/src/lib.rs` L27-43). -/
abbrev SerialHeader := Header NodeId16 Tid64
/-- `Transfer<Vec<u8>, SerialTransport>` (`canadensis_serial/src/lib.rs` L27-43). -/
abbrev SerialTransfer := Transfer NodeId16 Tid64

/-- `Session` (`canadensis_serial/src/rx.rs` L443-446). -/
structure Session where
  expirationTime : Instant
  lastTransferId : Tid64
deriving DecidableEq

/-- `Subscription` (`canadensis_serial/src/rx.rs` L404-413). The hash map of sessions is modelled as a function; only the
removal loop iterates over it, and its result does not depend on the order. -/
structure Subscription where
  payloadSizeMax : Nat
  timeout : Duration
  sessions : NodeId16 → Option Session

/-- `Subscription::new` (`canadensis_serial/src/rx.rs` L416-422). -/
def Subscription.new (payloadSizeMax : Nat) (timeout : Duration) : Subscription :=
  { payloadSizeMax, timeout, sessions := fun _ => none }

/-- `Subscription::clean_expired_sessions` (`canadensis_serial/src/rx.rs` L425-440): removes expired sessions one at a time
until there are none. -/
def Subscription.cleanExpired (now : Instant) (s : Subscription) : Subscription :=
  { s with sessions := fun n =>
      match s.sessions n with
      | some session => if Instant.before session.expirationTime now then none else some session
      | none => none }

/-- `HeaderCollector` (`canadensis_serial/src/header_collector.rs` L6-13): the bytes pushed so far. -/
abbrev HeaderCollector := List Byte

/-- `HeaderCollector::push` (`canadensis_serial/src/header_collector.rs` L31-34); `none` is the panic for a full collector. -/
def HeaderCollector.push (h : HeaderCollector) (byte : Byte) : Option HeaderCollector :=
  if h.length < Verif.Hdr.size then some (h ++ [byte]) else none

/-- `HeaderCollector::is_done` (`canadensis_serial/src/header_collector.rs` L23-25). -/
def HeaderCollector.isDone (h : HeaderCollector) : Bool := h.length == Verif.Hdr.size

/-- `HeaderCollector::as_header` (`canadensis_serial/src/header_collector.rs` L37-39). The byte array has the full length,
with zeros after the bytes pushed so far; `none` is the panic of `expect`. -/
def HeaderCollector.asHeader (h : HeaderCollector) : Option RawHeader :=
  RawHeader.fromBytes (h ++ List.replicate (Verif.Hdr.size - h.length) 0#8)

/-- `State` (`canadensis_serial/src/rx.rs` L449-476). The capacity of the payload vector is a field here; for a new vector
`try_reserve_exact(n)` gives capacity `n`. -/
inductive State where
  | idle
  | betweenTransfers
  | header (unescaper : Unescaper) (header : HeaderCollector)
  | payload (unescaper : Unescaper) (header : SerialHeader) (crc : Tracker) (payload : List Byte) (capacity : Nat)

/-- `SerialReceiver` (`canadensis_serial/src/rx.rs` L23-29). -/
structure Receiver where
  state : State
  nodeId : Option NodeId16
  subscriptions : SubManager Subscription

/-- `SerialReceiver::new` and `new_anonymous` (`canadensis_serial/src/rx.rs` L37-54). -/
def Receiver.new (nodeId : Option NodeId16) : Receiver := { state := .idle, nodeId, subscriptions := .empty }

/-- `clean_expired_sessions` (`canadensis_serial/src/rx.rs` L56-63). -/
def Receiver.cleanExpired (now : Instant) (r : Receiver) : Receiver :=
  { r with subscriptions := r.subscriptions.mapAll (Subscription.cleanExpired now) }

/-- What the receiver does with one byte: nothing, a transfer, or `Err(OutOfMemoryError)`. (`canadensis_serial/src/rx.rs` L65.) -/
inductive Output where
  | nothing
  | transfer (t : SerialTransfer)
  | outOfMemory
deriving DecidableEq

/-- `find_subscription` of the manager (`canadensis_core/src/subscription.rs` L38-50). -/
def findSubscription (m : SubManager Subscription) (h : SerialHeader) : Option Subscription := m.find h.kind h.port

/-- `is_interested` (`canadensis_serial/src/rx.rs` L339-366). -/
def Receiver.isInterested (r : Receiver) (h : SerialHeader) : Option Subscription :=
  match findSubscription r.subscriptions h with
  | none => none
  | some sub =>
    match h.source with
    | some source =>
      match sub.sessions source with
      | some session => if session.lastTransferId < h.transferId then some sub else none
      | none => some sub
    | none => some sub

/-- `find_subscription_mut` of the receiver, reading (`canadensis_serial/src/rx.rs` L309-334). -/
def Receiver.findSubscriptionMut (r : Receiver) (h : SerialHeader) : Option Subscription :=
  match h with
  | .message m => r.subscriptions.find .message m.subject.toNat
  | .request s => if r.nodeId = some s.destination then r.subscriptions.find .request s.service.toNat else none
  | .response s => if r.nodeId = some s.destination then r.subscriptions.find .response s.service.toNat else none

/-- `sessions.insert` (`canadensis_serial/src/rx.rs` L383-389). -/
def Subscription.record (source : NodeId16) (h : SerialHeader) (sub : Subscription) : Subscription :=
  { sub with sessions := fun n =>
      if n = source then some { expirationTime := Instant.plus h.timestamp sub.timeout, lastTransferId := h.transferId }
      else sub.sessions n }

/-- `complete_transfer` (`canadensis_serial/src/rx.rs` L368-401). When `sessions.insert` runs out of memory the transfer is
returned without recording it. -/
def Receiver.completeTransfer (oom : Bool) (r : Receiver) (h : SerialHeader) (payload : List Byte) (crc : Tracker) :
    Receiver × Output :=
  if !crc.correct then (r, .nothing)
  else
    match r.findSubscriptionMut h with
    | none => (r, .nothing)
    | some _ =>
      let r := match h.source with
        | some source =>
          if oom then r
          else { r with subscriptions := r.subscriptions.update h.kind h.port (Subscription.record source h) }
        | none => r
      (r, .transfer { header := h, loopback := false, payload })

/-- The `Header` state after a complete header (`canadensis_serial/src/rx.rs` L110-146); `none` is a panic. -/
def Receiver.headerDone (oom : Bool) (r : Receiver) (u : Unescaper) (h : HeaderCollector) (now : Instant) :
    Option (Receiver × Output) :=
  match h.asHeader with
  | none => none
  | some raw =>
    match TransportHeader.tryFrom raw with
    | some th =>
      let header := th.asCoreHeader now
      match r.isInterested header with
      | some sub =>
        if oom then some ({ r with state := .idle }, .outOfMemory)
        else some ({ r with state := .payload u header Tracker.new [] sub.payloadSizeMax }, .nothing)
      | none => some ({ r with state := .idle }, .nothing)
    | none => some ({ r with state := .idle }, .nothing)

/-- The first byte of a frame (`canadensis_serial/src/rx.rs` L80-95); `none` is the panic of `unreachable!` or of the header
collector. -/
def Receiver.startFrame (r : Receiver) (byte : Byte) : Option (Receiver × Output) :=
  match Unescaper.new.accept byte with
  | some (some b, u) =>
    match HeaderCollector.push [] b with
    | none => none
    | some h => some ({ r with state := .header u h }, .nothing)
  | some (none, u) => some ({ r with state := .header u [] }, .nothing)
  | none => none

/-- A byte in the `Header` state (`canadensis_serial/src/rx.rs` L102-160). -/
def Receiver.headerByte (oom : Bool) (r : Receiver) (u : Unescaper) (h : HeaderCollector) (byte : Byte) (now : Instant) :
    Option (Receiver × Output) :=
  match u.accept byte with
  | some (some b, u) =>
    match h.push b with
    | none => none
    | some h => if h.isDone then r.headerDone oom u h now else some ({ r with state := .header u h }, .nothing)
  | some (none, u) => some ({ r with state := .header u h }, .nothing)
  | none => some ({ r with state := .idle }, .nothing)

/-- A byte in the `Payload` state (`canadensis_serial/src/rx.rs` L162-198). -/
def Receiver.payloadByte (oom : Bool) (r : Receiver) (u : Unescaper) (header : SerialHeader) (crc : Tracker) (payload : List Byte)
    (capacity : Nat) (byte : Byte) : Receiver × Output :=
  match u.accept byte with
  | some (some b, u) =>
    let d := crc.digest b
    let payload := match d.1 with
      | some before => if payload.length < capacity then payload ++ [before] else payload
      | none => payload
    ({ r with state := .payload u header d.2 payload capacity }, .nothing)
  | some (none, u) => ({ r with state := .payload u header crc payload capacity }, .nothing)
  | none => ({ r with state := .betweenTransfers } : Receiver).completeTransfer oom header payload crc

/-- `handle_byte` (`canadensis_serial/src/rx.rs` L65-201). -/
def Receiver.handleByte (oom : Bool) (r : Receiver) (byte : Byte) (now : Instant) : Option (Receiver × Output) :=
  match r.state with
  | .idle => some ({ r with state := if byte = 0#8 then .betweenTransfers else .idle }, .nothing)
  | .betweenTransfers => if byte ≠ 0#8 then r.startFrame byte else some ({ r with state := .betweenTransfers }, .nothing)
  | .header u h => r.headerByte oom u h byte now
  | .payload u header crc payload capacity => some (r.payloadByte oom u header crc payload capacity byte)

/-- What `receive_byte` of the driver returns (`canadensis_serial/src/driver.rs` L14-18), with the clock reading and the
allocator behaviour for the byte. -/
inductive Input (E : Type) where
  | byte (b : Byte) (now : Instant) (oom : Bool)
  | wouldBlock
  | error (e : E)

/-- What `receive` returns. (`canadensis_serial/src/rx.rs` L214-231.) -/
inductive Received (E : Type) where
  | nothing
  | transfer (t : SerialTransfer)
  | outOfMemory
  | driver (e : E)

/-- The loop of `receive` (`canadensis_serial/src/rx.rs` L220-230). The list is what the driver will return; its end is
`WouldBlock`. The rest of the list is left for the next call. -/
def Receiver.receiveLoop {E : Type} (r : Receiver) : List (Input E) → Option (Receiver × Received E × List (Input E))
  | [] => some (r, .nothing, [])
  | .wouldBlock :: rest => some (r, .nothing, rest)
  | .error e :: rest => some (r, .driver e, rest)
  | .byte b now oom :: rest =>
    match r.handleByte oom b now with
    | none => none
    | some (r, .transfer t) => some (r, .transfer t, rest)
    | some (r, .outOfMemory) => some (r, .outOfMemory, rest)
    | some (r, .nothing) => r.receiveLoop rest

/-- `receive` (`canadensis_serial/src/rx.rs` L214-231). -/
def Receiver.receive {E : Type} (r : Receiver) (now : Instant) (inputs : List (Input E)) :
    Option (Receiver × Received E × List (Input E)) :=
  (r.cleanExpired now).receiveLoop inputs

/-- `subscribe_message` (`canadensis_serial/src/rx.rs` L233-243), and `subscribe_request`, `subscribe_response`
(L249-263, L269-283), which fail for an anonymous node. The Boolean tells whether the call succeeded. -/
def Receiver.subscribe (oom : Bool) (r : Receiver) (k : Kind) (port payloadSizeMax : Nat) (timeout : Duration) : Receiver × Bool :=
  if k ≠ .message ∧ r.nodeId = none then (r, false)
  else
    let p := r.subscriptions.subscribe oom k port (Subscription.new payloadSizeMax timeout)
    ({ r with subscriptions := p.1 }, p.2)

/-- `unsubscribe_message`, `unsubscribe_request`, `unsubscribe_response` (`canadensis_serial/src/rx.rs` L245-247, L265-267,
L285-287). -/
def Receiver.unsubscribe (r : Receiver) (k : Kind) (port : Nat) : Receiver :=
  { r with subscriptions := r.subscriptions.unsubscribe k port }

/-- `set_id` (`canadensis_serial/src/rx.rs` L289-291). -/
def Receiver.setId (r : Receiver) (id : Option NodeId16) : Receiver := { r with nodeId := id }

/-! ### Transmitter -/

/-- `TransmitQueue` with its capacity (`canadensis_serial/src/tx.rs` L134, a `heapless::Deque`). -/
structure Queue where
  capacity : Nat
  bytes : List Byte
deriving DecidableEq

/-- `TransmitQueue::push_back` (`canadensis_serial/src/tx.rs` L141-143); `none` is `OutOfMemoryError`. -/
def Queue.pushBack (q : Queue) (b : Byte) : Option Queue :=
  if q.bytes.length < q.capacity then some { q with bytes := q.bytes ++ [b] } else none

/-- The loop of `push_back(..).unwrap()` (`canadensis_serial/src/tx.rs` L98-102). -/
def Queue.pushAll (q : Queue) : List Byte → Option Queue
  | [] => some q
  | b :: bs =>
    match q.pushBack b with
    | none => none
    | some q => q.pushAll bs

/-- `make_payload_crc` (`canadensis_serial/src/lib.rs` L46-50) with `to_le_bytes` (`canadensis_serial/src/tx.rs` L85). -/
def payloadCrc (payload : List Byte) : List Byte := leBytes 4 (Verif.Crc.crc32c payload).toNat

/-- `push` (`canadensis_serial/src/tx.rs` L57-105). The outer `none` is a panic (`expect` or `unwrap`); the Boolean tells whether
the result is `Ok(())`, otherwise it is `Err(OutOfMemoryError)`. `oom` tells that the temporary buffer cannot be allocated. -/
def Queue.push (oom : Bool) (q : Queue) (t : SerialTransfer) : Option (Queue × Bool) :=
  let frameLength := t.payload.length + (Verif.Hdr.size + 4)
  let escapedLength := Verif.Cobs.escapedSize frameLength
  if escapedLength + 2 > q.capacity - q.bytes.length then some (q, false)
  else if oom then some (q, false)
  else
    let data := (RawHeader.ofHeader (TransportHeader.ofCore t.header)).asBytes ++ t.payload ++ payloadCrc t.payload
    match Verif.Cobs.escapeFromIter data (List.replicate escapedLength 0#8) with
    | none => none
    | some (n, buffer) =>
      if n + 2 > q.capacity - q.bytes.length then some (q, false)
      else
        match q.pushBack 0#8 with
        | none => none
        | some q =>
          match q.pushAll (buffer.take n) with
          | none => none
          | some q =>
            match q.pushBack 0#8 with
            | none => none
            | some q => some (q, true)

/-- What `send_byte` returns (`canadensis_serial/src/driver.rs` L7-11). -/
inductive Sent (E : Type) where
  | ok
  | wouldBlock
  | other (e : E)
deriving DecidableEq

/-- A transmit driver as a state machine (`TransmitDriver`, `canadensis_serial/src/driver.rs` L7-11). -/
abbrev TxDriver (σ E : Type) := σ → Byte → σ × Sent E

/-- `flush` (`canadensis_serial/src/tx.rs` L107-125), on the bytes of the queue. The `expect` for putting a byte back cannot fail
because the byte was just removed. -/
def flushBytes {σ E : Type} (d : TxDriver σ E) (s : σ) : List Byte → σ × List Byte × Sent E
  | [] => (s, [], .ok)
  | b :: bs =>
    let p := d s b
    match p.2 with
    | .ok => flushBytes d p.1 bs
    | .wouldBlock => (p.1, b :: bs, .wouldBlock)
    | .other e => (p.1, b :: bs, .other e)

/-- `flush` (`canadensis_serial/src/tx.rs` L107-125). -/
def Queue.flush {σ E : Type} (d : TxDriver σ E) (s : σ) (q : Queue) : σ × Queue × Sent E :=
  let p := flushBytes d s q.bytes
  (p.1, { q with bytes := p.2.1 }, p.2.2)

end Verif.Serial
