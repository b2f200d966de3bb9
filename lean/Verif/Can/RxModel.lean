import Verif.Can.Frame
import Verif.Crc.Model

/-!
The CAN receiver: `canadensis_can/src/rx.rs`, `rx/subscription.rs`, `rx/session.rs`, `rx/buildup.rs`.

* A panic is the result `none`.
* `checks` says whether the build has overflow checks and debug assertions on (debug profile) or off (release profile).
* `oom` is the answer of the allocator for the allocations made while one frame is handled: `true` means that they fail.
  Each path through the code makes allocations that have the same effect when they fail, so one bit per frame is enough.
* Logging has no effect and is left out.
-/

namespace Verif.Can

open Verif.Crc (digestBytes16 crc16Init)

/-- `Buildup` (`canadensis_can/src/rx/buildup.rs` L12-30). The counters are unbounded: the model does not represent the
overflow of `frames` or `payload_size` after 2^64 frames or bytes. `capacity` is the capacity of the `transfer` vector.
`try_reserve_exact` may in principle reserve more than asked; the model takes exactly the requested amount. -/
structure Buildup where
  frames : Nat
  payloadSize : Nat
  expectStart : Bool
  expectToggle : Bool
  capacity : Nat
  transfer : List Byte
  crc : BitVec 16
deriving DecidableEq, Repr

/-- `Buildup::new` (`canadensis_can/src/rx/buildup.rs` L37-49), allocation succeeded. -/
def Buildup.new (payloadSizeMax : Nat) : Buildup :=
  { frames := 0, payloadSize := 0, expectStart := true, expectToggle := true, capacity := payloadSizeMax,
    transfer := [], crc := crc16Init }

/-- The subtraction `self.payload_size -= 2` (`canadensis_can/src/rx/buildup.rs` L87) on a 64-bit `usize`: panics on
underflow with checks, wraps without. -/
def subTwo (checks : Bool) (n : Nat) : Option Nat :=
  if 2 ≤ n then some (n - 2) else if checks then none else some (n + 2 ^ 64 - 2)

/-- `Buildup::add` (`canadensis_can/src/rx/buildup.rs` L59-105). `Except.error ()` is `BuildupError::Crc`. -/
def Buildup.add (checks : Bool) (b : Buildup) (data : List Byte) : Option (Buildup × Except Unit (Option (List Byte))) :=
  let b := { b with frames := b.frames + 1 }
  match data.getLast? with
  | none => none
  | some last =>
    let tail := TailByte.parse last
    if tail.start ≠ b.expectStart then some (b, .ok none)
    else if tail.toggle ≠ b.expectToggle then some (b, .ok none)
    else
      let b := { b with expectStart := false, expectToggle := !b.expectToggle }
      let frameWithoutTail := data.take (data.length - 1)
      let capacityRemaining := b.capacity - b.transfer.length
      let bytesToCopy := min capacityRemaining frameWithoutTail.length
      let b := { b with transfer := b.transfer ++ frameWithoutTail.take bytesToCopy }
      let b := { b with crc := digestBytes16 b.crc frameWithoutTail }
      let size := b.payloadSize + frameWithoutTail.length
      match (if tail.end_ && !tail.start then subTwo checks size else some size) with
      | none => none
      | some size =>
        let b := { b with payloadSize := size }
        let skipCrc := tail.start && tail.end_
        if tail.end_ then
          if skipCrc || b.crc == 0#16 then
            let data := b.transfer.take b.payloadSize
            some ({ b with transfer := [], capacity := 0 }, .ok (some data))
          else some (b, .error ())
        else some (b, .ok none)

/-- `Session` (`canadensis_can/src/rx/session.rs` L14-21). -/
structure Session where
  transferTimestamp : Instant
  loopback : Bool
  buildup : Buildup
deriving DecidableEq, Repr

/-- `Session::new` / `boxed` (`canadensis_can/src/rx/session.rs` L25-49), allocation succeeded. -/
def Session.new (ts : Instant) (maxPayload : Nat) (loopback : Bool) : Session :=
  { transferTimestamp := ts, loopback, buildup := Buildup.new maxPayload }

/-- `Session::accept` with `handle_transfer_data` (`canadensis_can/src/rx/session.rs` L57-89). -/
def Session.accept (checks : Bool) (s : Session) (frame : Frame) (header : CanHeader) :
    Option (Session × Except Unit (Option CanTransfer)) :=
  if frame.loopback ≠ s.loopback then some (s, .ok none)
  else
    match s.buildup.add checks frame.data with
    | none => none
    | some (b, .error e) => some ({ s with buildup := b }, .error e)
    | some (b, .ok none) => some ({ s with buildup := b }, .ok none)
    | some (b, .ok (some data)) =>
      some ({ s with buildup := b },
        .ok (some { header := header.setTimestamp s.transferTimestamp, loopback := s.loopback, payload := data }))

/-- `SessionState` (`canadensis_can/src/rx/subscription.rs` L22-26). -/
structure SessionState where
  expectedTid : Tid
  lastTransferTime : Option Instant
  session : Option Session
deriving DecidableEq, Repr

/-- The initial `SessionState` (`canadensis_can/src/rx/subscription.rs` L289-293). -/
def SessionState.init : SessionState := { expectedTid := 0#5, lastTransferTime := none, session := none }

/-- `flag_successful_transfer` for one node (`canadensis_can/src/rx/subscription.rs` L306-312). -/
def SessionState.flagSuccessful (s : SessionState) (ts : Instant) : SessionState :=
  { expectedTid := s.expectedTid.increment, lastTransferTime := some ts, session := none }

/-- `SubscriptionError` (`canadensis_can/src/rx/subscription.rs` L255-262); `SessionError::Memory` cannot occur because
`Session::accept` only fails with `Buildup`. -/
inductive SubscriptionError where
  | notStart | session | memory
deriving DecidableEq, Repr

/-- `has_transfer_id_timed_out` for one node (`canadensis_can/src/rx/subscription.rs` L117-131). -/
def SessionState.timedOut (s : SessionState) (timeout : Duration) (frameTime : Instant) : Bool :=
  match s.lastTransferTime with
  | none => true
  | some t =>
    match frameTime.checkedDurationSince t with
    | some age => decide (age.toNat > timeout.toNat)
    | none => true

/-- `accept_with_session` for one node (`canadensis_can/src/rx/subscription.rs` L162-223). -/
def SessionState.acceptWithSession (checks oom : Bool) (payloadSizeMax : Nat) (s : SessionState) (frame : Frame)
    (header : CanHeader) (tail : TailByte) : Option (SessionState × Except SubscriptionError (Option CanTransfer)) :=
  if checks && tail.transferId != s.expectedTid then none
  else
    let opened : Except SubscriptionError Session :=
      match s.session with
      | some session => .ok session
      | none =>
        if !tail.start then .error .notStart
        else if oom then .error .memory
        else .ok (Session.new header.timestamp payloadSizeMax frame.loopback)
    match opened with
    | .error e => some (s, .error e)
    | .ok session =>
      match session.accept checks frame header with
      | none => none
      | some (session, .ok (some transfer)) =>
        some ({ s with session := some session }.flagSuccessful session.transferTimestamp, .ok (some transfer))
      | some (session, .ok none) => some ({ s with session := some session }, .ok none)
      | some (_, .error _) => some ({ s with session := none }, .error .session)

/-- `accept_non_anonymous` for one node (`canadensis_can/src/rx/subscription.rs` L133-160). -/
def SessionState.acceptNonAnonymous (checks oom : Bool) (payloadSizeMax : Nat) (s : SessionState) (frame : Frame)
    (header : CanHeader) (tail : TailByte) : Option (SessionState × Except SubscriptionError (Option CanTransfer)) :=
  if checks && tail.transferId != s.expectedTid then none
  else if tail.start && tail.end_ then
    if frame.data = [] then none
    else
      let usable := min payloadSizeMax (frame.data.length - 1)
      if oom then some (s, .error .memory)
      else some (s.flagSuccessful frame.timestamp,
        .ok (some { header, loopback := frame.loopback, payload := frame.data.take usable }))
  else s.acceptWithSession checks oom payloadSizeMax frame header tail

/-- `checked_accept_non_anonymous` for one node (`canadensis_can/src/rx/subscription.rs` L92-115). -/
def SessionState.checkedAccept (checks oom : Bool) (payloadSizeMax : Nat) (timeout : Duration) (s : SessionState)
    (frame : Frame) (header : CanHeader) (tail : TailByte) :
    Option (SessionState × Except SubscriptionError (Option CanTransfer)) :=
  if tail.transferId = s.expectedTid then s.acceptNonAnonymous checks oom payloadSizeMax frame header tail
  else if tail.transferId.increment = s.expectedTid && !s.timedOut timeout frame.timestamp then some (s, .ok none)
  else
    { s with session := none, expectedTid := tail.transferId }.acceptNonAnonymous checks oom payloadSizeMax frame header tail

/-- `Subscription` (`canadensis_can/src/rx/subscription.rs` L32-50). The array of 128 states is a function of the node
ID. -/
structure Subscription where
  timeout : Duration
  payloadSizeMax : Nat
  port : Nat
  states : NodeId → SessionState

/-- `Subscription::new` (`canadensis_can/src/rx/subscription.rs` L68-75, L287-295). -/
def Subscription.new (timeout : Duration) (payloadSizeMax port : Nat) : Subscription :=
  { timeout, payloadSizeMax, port, states := fun _ => .init }

/-- `accept_anonymous` (`canadensis_can/src/rx/subscription.rs` L225-244). -/
def acceptAnonymous (oom : Bool) (frame : Frame) (header : CanHeader) :
    Option (Except SubscriptionError (Option CanTransfer)) :=
  if frame.data = [] then none
  else if oom then some (.error .memory)
  else some (.ok (some { header, loopback := frame.loopback, payload := frame.data.take (frame.data.length - 1) }))

/-- `Subscription::accept` (`canadensis_can/src/rx/subscription.rs` L78-89). -/
def Subscription.accept (checks oom : Bool) (sub : Subscription) (frame : Frame) (header : CanHeader) (tail : TailByte) :
    Option (Subscription × Except SubscriptionError (Option CanTransfer)) :=
  match header.source with
  | some source =>
    match (sub.states source).checkedAccept checks oom sub.payloadSizeMax sub.timeout frame header tail with
    | none => none
    | some (st, r) => some ({ sub with states := fun n => if n = source then st else sub.states n }, r)
  | none =>
    match acceptAnonymous oom frame header with
    | none => none
    | some r => some (sub, r)

/-- `CanReceiver` (`canadensis_can/src/rx.rs` L31-51). -/
structure Receiver where
  subscriptionsMessage : List Subscription
  subscriptionsResponse : List Subscription
  subscriptionsRequest : List Subscription
  id : Option NodeId
  transferCount : BitVec 64
  errorCount : BitVec 64

/-- `CanReceiver::new_inner`, used by `new` and `new_anonymous` (`canadensis_can/src/rx.rs` L238-260). -/
def Receiver.new (id : Option NodeId) : Receiver :=
  { subscriptionsMessage := [], subscriptionsResponse := [], subscriptionsRequest := [], id, transferCount := 0,
    errorCount := 0 }

/-- `subscriptions_for_kind` (`canadensis_can/src/rx.rs` L395-401), reading. -/
def Receiver.subs (r : Receiver) : Kind → List Subscription
  | .message => r.subscriptionsMessage
  | .response => r.subscriptionsResponse
  | .request => r.subscriptionsRequest

/-- `subscriptions_for_kind` (`canadensis_can/src/rx.rs` L395-401), writing through the returned reference. -/
def Receiver.setSubs (r : Receiver) (k : Kind) (l : List Subscription) : Receiver :=
  match k with
  | .message => { r with subscriptionsMessage := l }
  | .response => { r with subscriptionsResponse := l }
  | .request => { r with subscriptionsRequest := l }

/-- `increment_transfer_count` (`canadensis_can/src/rx.rs` L415-417). -/
def Receiver.incTransfer (r : Receiver) : Receiver := { r with transferCount := r.transferCount + 1 }

/-- `increment_error_count` (`canadensis_can/src/rx.rs` L418-420). -/
def Receiver.incError (r : Receiver) : Receiver := { r with errorCount := r.errorCount + 1 }

/-- `frame_sanity_check` (`canadensis_can/src/rx.rs` L346-365). The outer `none` is a panic in `parse_can_id`. -/
def sanityCheck (frame : Frame) : Option (Option (CanHeader × TailByte)) :=
  match frame.data.getLast? with
  | none => some none
  | some last =>
    let tail := TailByte.parse last
    match parseCanId frame.id frame.timestamp tail.transferId with
    | none => none
    | some (.error _) => some none
    | some (.ok header) =>
      let anonymousMessage := match header with
        | .message m => m.source.isNone
        | _ => false
      if anonymousMessage && !(tail.toggle && tail.start && tail.end_) then some none
      else some (some (header, tail))

/-- `can_accept_service` (`canadensis_can/src/rx.rs` L299-304). -/
def Receiver.canAcceptService (r : Receiver) (destination : NodeId) : Bool :=
  match r.id with
  | some localId => localId == destination
  | none => false

/-- The search and in-place update in `accept_sane_frame` (`canadensis_can/src/rx.rs` L315-319): the first subscription
with the port of the frame accepts it. The result is `some none` when there is none. -/
def acceptFirst (checks oom : Bool) (frame : Frame) (header : CanHeader) (tail : TailByte) :
    List Subscription → Option (Option (List Subscription × Except SubscriptionError (Option CanTransfer)))
  | [] => some none
  | sub :: rest =>
    if sub.port = header.port then
      match sub.accept checks oom frame header tail with
      | none => none
      | some (sub, r) => some (some (sub :: rest, r))
    else
      match acceptFirst checks oom frame header tail rest with
      | none => none
      | some none => some none
      | some (some (rest, r)) => some (some (sub :: rest, r))

/-- What `accept_frame` returns: `Ok(None)`, `Ok(Some(transfer))` or `Err(OutOfMemoryError)`. (`canadensis_can/src/rx.rs` L273-340.) -/
inductive Accepted where
  | nothing
  | transfer (t : CanTransfer)
  | outOfMemory
deriving DecidableEq, Repr

/-- `accept_sane_frame` (`canadensis_can/src/rx.rs` L307-342). -/
def Receiver.acceptSaneFrame (checks oom : Bool) (r : Receiver) (frame : Frame) (header : CanHeader) (tail : TailByte) :
    Option (Receiver × Accepted) :=
  match acceptFirst checks oom frame header tail (r.subs header.kind) with
  | none => none
  | some none => some (r, .nothing)
  | some (some (l, res)) =>
    let r := r.setSubs header.kind l
    match res with
    | .ok (some t) => some (r.incTransfer, .transfer t)
    | .ok none => some (r, .nothing)
    | .error .memory => some (r.incError, .outOfMemory)
    | .error _ => some (r.incError, .nothing)

/-- `accept_frame` (`canadensis_can/src/rx.rs` L273-295). -/
def Receiver.acceptFrame (checks oom : Bool) (r : Receiver) (frame : Frame) : Option (Receiver × Accepted) :=
  match sanityCheck frame with
  | none => none
  | some none => some (r.incError, .nothing)
  | some (some (header, tail)) =>
    match header with
    | .message _ => r.acceptSaneFrame checks oom frame header tail
    | .request s | .response s =>
      if !(frame.loopback || r.canAcceptService s.destination) then some (r, .nothing)
      else r.acceptSaneFrame checks oom frame header tail

/-- `CanReceiver::unsubscribe` (`canadensis_can/src/rx.rs` L390-393). -/
def Receiver.unsubscribe (r : Receiver) (k : Kind) (port : Nat) : Receiver :=
  r.setSubs k ((r.subs k).filter (fun s => s.port != port))

/-- `CanReceiver::subscribe` (`canadensis_can/src/rx.rs` L367-389), with allocation answer `oom`. The reservation cannot
fail when a subscription was just removed, because the vector keeps its capacity. -/
def Receiver.subscribe (oom : Bool) (r : Receiver) (k : Kind) (port payloadSizeMax : Nat) (timeout : Duration) :
    Receiver × Bool :=
  let r' := r.unsubscribe k port
  let reuse := decide ((r'.subs k).length < (r.subs k).length)
  if oom && !reuse then (r', false)
  else (r'.setSubs k (r'.subs k ++ [Subscription.new timeout payloadSizeMax port]), true)

/-- What `subscribe_message`, `subscribe_request` and `subscribe_response` return. (`canadensis_can/src/rx.rs` L94-215.) -/
inductive SubscribeResult where
  | ok | memory | anonymous
deriving DecidableEq, Repr

/-- The argument of a `driver.apply_filters` call: the local node ID and the list of subscriptions. (`canadensis_can/src/rx.rs` L435.) -/
structure FilterCall where
  localNode : Option NodeId
  subscriptions : List (Kind × Nat)
deriving DecidableEq, Repr

/-- `apply_frame_filters` (`canadensis_can/src/rx.rs` L422-436). The `try_into().unwrap()` conversions turn stored port
IDs back into subject or service IDs; ports only enter the lists from such IDs. -/
def Receiver.filterCall (r : Receiver) : FilterCall :=
  { localNode := r.id
    subscriptions := r.subscriptionsMessage.map (fun s => (Kind.message, s.port)) ++
      r.subscriptionsRequest.map (fun s => (Kind.request, s.port)) ++
      r.subscriptionsResponse.map (fun s => (Kind.response, s.port)) }

/-- `subscribe_message` (`canadensis_can/src/rx.rs` L94-110). The last component is the call made to the driver, if any. -/
def Receiver.subscribeMessage (oom : Bool) (r : Receiver) (subject : SubjectId) (payloadSizeMax : Nat)
    (timeout : Duration) : Receiver × SubscribeResult × Option FilterCall :=
  match r.subscribe oom .message subject.toNat payloadSizeMax timeout with
  | (r, true) => (r, .ok, some r.filterCall)
  | (r, false) => (r, .memory, none)

/-- `subscribe_request` (`canadensis_can/src/rx.rs` L132-153) and `subscribe_response` (L175-196), which differ only in
the kind. -/
def Receiver.subscribeService (oom : Bool) (r : Receiver) (k : Kind) (service : ServiceId) (payloadSizeMax : Nat)
    (timeout : Duration) : Receiver × SubscribeResult × Option FilterCall :=
  if r.id.isSome then
    match r.subscribe oom k service.toNat payloadSizeMax timeout with
    | (r, true) => (r, .ok, some r.filterCall)
    | (r, false) => (r, .memory, none)
  else (r, .anonymous, none)

/-- `unsubscribe_message`, `unsubscribe_request`, `unsubscribe_response` (`canadensis_can/src/rx.rs` L113-116, L156-159,
L198-201). -/
def Receiver.unsubscribePort (r : Receiver) (k : Kind) (port : Nat) : Receiver × FilterCall :=
  let r := r.unsubscribe k port
  (r, r.filterCall)

/-- `set_id` (`canadensis_can/src/rx.rs` L207-209). -/
def Receiver.setId (r : Receiver) (id : Option NodeId) : Receiver := { r with id }

/-- `Receiver::subscribers` (`canadensis_can/src/rx.rs` L214-218); `none` is a panic in `unwrap`. -/
def Receiver.subscribers (r : Receiver) : Option (List SubjectId) :=
  r.subscriptionsMessage.mapM (fun s => SubjectId.tryFrom (BitVec.ofNat 16 s.port))

/-- `Receiver::servers` (`canadensis_can/src/rx.rs` L223-227); `none` is a panic in `unwrap`. -/
def Receiver.servers (r : Receiver) : Option (List ServiceId) :=
  r.subscriptionsRequest.mapM (fun s => ServiceId.tryFrom (BitVec.ofNat 16 s.port))

/-- What the driver's `receive` answers (`canadensis_can/src/driver.rs`, `ReceiveDriver::receive`). -/
inductive DriverRx where
  | frame (f : Frame) (oom : Bool)
  | wouldBlock
  | error
deriving DecidableEq, Repr

/-- What `Receiver::receive` returns. (`canadensis_can/src/rx.rs` L62-92.) -/
inductive ReceiveResult where
  | transfer (t : CanTransfer)
  | none
  | memory
  | driver
deriving DecidableEq, Repr

/-- `CanReceiver::receive` (`canadensis_can/src/rx.rs` L62-81). The answers the driver will give are listed in advance;
when the list runs out the driver has no more frames (`WouldBlock`). The unused answers are returned. -/
def Receiver.receive (checks : Bool) (r : Receiver) : List DriverRx → Option (Receiver × ReceiveResult × List DriverRx)
  | [] => some (r, .none, [])
  | .wouldBlock :: rest => some (r, .none, rest)
  | .error :: rest => some (r, .driver, rest)
  | .frame f oom :: rest =>
    match r.acceptFrame checks oom f with
    | none => none
    | some (r, .transfer t) => some (r, .transfer t, rest)
    | some (r, .outOfMemory) => some (r, .memory, rest)
    | some (r, .nothing) => r.receive checks rest

end Verif.Can
