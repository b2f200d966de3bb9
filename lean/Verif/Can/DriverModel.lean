import Verif.Can.TxModel
import Verif.Can.QueueModel
import Verif.Can.RxModel

/-!
Drivers made of queues and other drivers: `canadensis_can/src/queue/mod.rs`, `queue/queue_only_driver.rs` and
`redundant/*.rs`. A panic is `none`.
-/

namespace Verif.Can

/-- The functions of a type that implements `FrameQueue` (`canadensis_can/src/queue/mod.rs` L20-49); `true` is `Ok(())` and
`false` is `Err(OutOfMemoryError)`. -/
structure QueueImpl (Q : Type) where
  tryReserve : Q → Nat → Option Bool
  push : Q → Frame → Option (Q × Bool)
  pop : Q → Option (Q × Option Frame)
  return_ : Q → Frame → Option (Q × Bool)

/-- `impl FrameQueue for ArrayQueue<N>` (`canadensis_can/src/queue/array_queue.rs` L80-176). -/
def arrayQueueImpl (N : Nat) : QueueImpl (ArrayQueue N) where
  tryReserve := ArrayQueue.tryReserve
  push := ArrayQueue.pushFrame
  pop := ArrayQueue.popFrame
  return_ := ArrayQueue.returnFrame

/-- `impl FrameQueue for SingleFrameQueue` (`canadensis_can/src/queue/single_frame_queue.rs` L23-61). -/
def singleFrameQueueImpl : QueueImpl SingleFrameQueue where
  tryReserve q n := some (q.tryReserve n)
  push q f := some (q.pushFrame f)
  pop q := some q.popFrame
  return_ q f := some (q.returnFrame f)

/-- `frame_is_expired` (`canadensis_can/src/queue/mod.rs` L185-187). -/
def frameIsExpired (frame : Frame) (now : Instant) : Bool := Instant.after now frame.timestamp

/-- What the driver side of a flush does, including the clock: `now` is `clock.now()`, `transmit` is `driver.transmit`. (`canadensis_can/src/queue/mod.rs` L138-182.) -/
structure FlushTarget (σ E : Type) where
  now : σ → σ × Instant
  transmit : σ → Frame → σ × TransmitResult E

/-- What happens to frames during a flush, in order. This record is not part of the code: it makes the calls and the drops in
`flush_single_queue` observable. (`canadensis_can/src/queue/mod.rs` L138-182.) -/
inductive FlushEvent where
  /-- The frame was dropped at L150-154 because its deadline had passed at `now`. -/
  | expired (f : Frame) (now : Instant)
  /-- The driver accepted the frame (L157, L158). -/
  | accepted (f : Frame)
  /-- The driver gave back a frame it had accepted before, and it went back into the queue (L160-166). -/
  | displaced (f : Frame)
  /-- The driver gave back a frame whose deadline had passed at `now`; it was dropped (L160). -/
  | displacedExpired (f : Frame) (now : Instant)
  /-- The driver refused the frame with `WouldBlock` (L169-177). -/
  | refused (f : Frame)
  /-- The driver failed with another error (L178). -/
  | failed (f : Frame)
deriving DecidableEq, Repr

/-- How a flush ends: `Ok(())`, `Err(WouldBlock)`, `Err(Other(e))`, or not yet after the number of iterations looked at. (`canadensis_can/src/queue/mod.rs` L138-182.) -/
inductive FlushResult (E : Type) where
  | ok | wouldBlock
  | other (e : E)
  | running
deriving DecidableEq, Repr

variable {Q σ E : Type}

/-- `flush_single_queue` (`canadensis_can/src/queue/mod.rs` L138-182). `fuel` is the number of iterations of the loop that are
looked at; the code has no such limit. The `expect`s on `return_frame` are the places that may give `none`. -/
def flushSingleQueue (impl : QueueImpl Q) (t : FlushTarget σ E) :
    Nat → Q → σ → Option (Q × σ × FlushResult E × List FlushEvent)
  | 0, q, s => some (q, s, .running, [])
  | fuel + 1, q, s =>
    match impl.pop q with
    | none => none
    | some (q, none) => some (q, s, .ok, [])
    | some (q, some frame) =>
      let (s, now) := t.now s
      if frameIsExpired frame now then
        (flushSingleQueue impl t fuel q s).map (fun r => (r.1, r.2.1, r.2.2.1, .expired frame now :: r.2.2.2))
      else
        match t.transmit s frame with
        | (s, .ok none) =>
          (flushSingleQueue impl t fuel q s).map (fun r => (r.1, r.2.1, r.2.2.1, .accepted frame :: r.2.2.2))
        | (s, .ok (some removed)) =>
          if !frameIsExpired removed now then
            match impl.return_ q removed with
            | none => none
            | some (_, false) => none
            | some (q, true) =>
              (flushSingleQueue impl t fuel q s).map
                (fun r => (r.1, r.2.1, r.2.2.1, .accepted frame :: .displaced removed :: r.2.2.2))
          else
            (flushSingleQueue impl t fuel q s).map
              (fun r => (r.1, r.2.1, r.2.2.1, .accepted frame :: .displacedExpired removed now :: r.2.2.2))
        | (s, .wouldBlock) =>
          match impl.return_ q frame with
          | none => none
          | some (_, false) => none
          | some (q, true) => some (q, s, .wouldBlock, [.refused frame])
        | (s, .other e) => some (q, s, .other e, [.failed frame])

/-- `impl TransmitDriver for SingleQueueDriver` (`canadensis_can/src/queue/mod.rs` L83-110), `try_reserve` and `transmit`. The
wrapped driver is not touched by these functions. -/
def singleQueueDriver (E : Type) (impl : QueueImpl Q) : TxDriver Q E where
  tryReserve q n := (impl.tryReserve q n).map (fun b => (q, b))
  transmit q f := (impl.push q f).map (fun p => (p.1, if p.2 then .ok none else .wouldBlock))

/-- `QueueOnlyDriver` (`canadensis_can/src/queue/queue_only_driver.rs` L36-40); the type `S` stands for `Subscription`. -/
structure QueueOnlyDriver (TC RC : Nat) (S : Type) where
  txQueue : ArrayQueue TC
  rxQueue : List Frame
  subscriptions : Option (List S)

/-- `QueueOnlyDriver::default` (`canadensis_can/src/queue/queue_only_driver.rs` L78-86). -/
def QueueOnlyDriver.new (TC RC : Nat) (S : Type) : QueueOnlyDriver TC RC S :=
  { txQueue := ArrayQueue.new TC, rxQueue := [], subscriptions := none }

variable {TC RC : Nat} {S : Type}

/-- `push_rx_frame` (`canadensis_can/src/queue/queue_only_driver.rs` L51-53): `heapless::Deque::push_back` fails when full. -/
def QueueOnlyDriver.pushRxFrame (d : QueueOnlyDriver TC RC S) (f : Frame) : QueueOnlyDriver TC RC S × Bool :=
  if d.rxQueue.length < RC then ({ d with rxQueue := d.rxQueue ++ [f] }, true) else (d, false)

/-- `receive` (`canadensis_can/src/queue/queue_only_driver.rs` L111-113); `none` is `WouldBlock`. -/
def QueueOnlyDriver.receive (d : QueueOnlyDriver TC RC S) : QueueOnlyDriver TC RC S × Option Frame :=
  match d.rxQueue with
  | [] => (d, none)
  | f :: rest => ({ d with rxQueue := rest }, some f)

/-- The loops of `apply_filters` (`canadensis_can/src/queue/queue_only_driver.rs` L122-128, L132-138): push until the
allocator fails. `pushes` gives the allocator's answers (`true` is success); missing answers count as success. The second
component tells whether a push failed. -/
def pushSubscriptions : List S → List Bool → List S → List S × Bool
  | [], _, acc => (acc, false)
  | s :: rest, [], acc => pushSubscriptions rest [] (acc ++ [s])
  | s :: rest, true :: answers, acc => pushSubscriptions rest answers (acc ++ [s])
  | _ :: _, false :: _, acc => (acc, true)

/-- `apply_filters` (`canadensis_can/src/queue/queue_only_driver.rs` L115-142). -/
def QueueOnlyDriver.applyFilters (d : QueueOnlyDriver TC RC S) (news : List S) (answers : List Bool) :
    QueueOnlyDriver TC RC S :=
  match d.subscriptions with
  | some _ =>
    match pushSubscriptions news answers [] with
    | (_, true) => { d with subscriptions := none }
    | (l, false) => { d with subscriptions := some l }
  | none =>
    match pushSubscriptions news answers [] with
    | (l, true) =>
      let d : QueueOnlyDriver TC RC S := { d with subscriptions := none }
      { d with subscriptions := some l }
    | (l, false) => { d with subscriptions := some l }

/-- `apply_accept_all` (`canadensis_can/src/queue/queue_only_driver.rs` L144-146). -/
def QueueOnlyDriver.applyAcceptAll (d : QueueOnlyDriver TC RC S) : QueueOnlyDriver TC RC S :=
  { d with subscriptions := none }

/-- `RedundantError` (`canadensis_can/src/redundant/redundant_queue.rs` L107-114). -/
inductive RedundantError (E0 E1 : Type) where
  | driver0 (e : E0)
  | driver1 (e : E1)
  | both (e0 : E0) (e1 : E1)
deriving DecidableEq, Repr

/-- The state of a `RedundantDriver` (`canadensis_can/src/redundant/redundant_queue.rs` L13-22); a status is `true` for
`Ok(())`. -/
structure RedundantDriver (σ0 σ1 : Type) where
  driver0 : σ0
  driver1 : σ1
  status0 : Bool
  status1 : Bool

/-- `RedundantDriver::new` (`canadensis_can/src/redundant/redundant_queue.rs` L26-33). -/
def RedundantDriver.new {σ0 σ1 : Type} (s0 : σ0) (s1 : σ1) : RedundantDriver σ0 σ1 :=
  { driver0 := s0, driver1 := s1, status0 := true, status1 := true }

/-- The results of the two drivers combined (`canadensis_can/src/redundant/redundant_queue.rs` L74-84). -/
def combineTransmit {E0 E1 : Type} : TransmitResult E0 → TransmitResult E1 → TransmitResult (RedundantError E0 E1)
  | .ok returned0, .ok _ => .ok returned0
  | .ok returned, _ => .ok returned
  | _, .ok returned => .ok returned
  | .wouldBlock, .wouldBlock => .wouldBlock
  | .other e0, .other e1 => .other (.both e0 e1)
  | .other e, _ => .other (.driver0 e)
  | _, .other e => .other (.driver1 e)

/-- `impl TransmitDriver for RedundantDriver` (`canadensis_can/src/redundant/redundant_queue.rs` L36-85), `try_reserve` and
`transmit`. -/
def redundantDriver {σ0 σ1 E0 E1 : Type} (d0 : TxDriver σ0 E0) (d1 : TxDriver σ1 E1) :
    TxDriver (RedundantDriver σ0 σ1) (RedundantError E0 E1) where
  tryReserve s n :=
    match d0.tryReserve s.driver0 n with
    | none => none
    | some (s0, ok0) =>
      match d1.tryReserve s.driver1 n with
      | none => none
      | some (s1, ok1) => some ({ driver0 := s0, driver1 := s1, status0 := ok0, status1 := ok1 }, ok0 || ok1)
  transmit s f :=
    match (if s.status0 then d0.transmit s.driver0 f else some (s.driver0, .wouldBlock)) with
    | none => none
    | some (s0, r0) =>
      match (if s.status1 then d1.transmit s.driver1 f else some (s.driver1, .wouldBlock)) with
      | none => none
      | some (s1, r1) => some ({ s with driver0 := s0, driver1 := s1 }, combineTransmit r0 r1)

/-- What `flush` returns. (`canadensis_can/src/queue/mod.rs` L138-182.) -/
inductive FlushStatus (E : Type) where
  | ok | wouldBlock
  | other (e : E)
deriving DecidableEq, Repr

/-- `RedundantDriver::flush` (`canadensis_can/src/redundant/redundant_queue.rs` L87-101): both drivers are flushed and the
results combined. -/
def combineFlush {E0 E1 : Type} : FlushStatus E0 → FlushStatus E1 → FlushStatus (RedundantError E0 E1)
  | .ok, _ => .ok
  | _, .ok => .ok
  | .wouldBlock, .wouldBlock => .wouldBlock
  | .other e0, .other e1 => .other (.both e0 e1)
  | .other e, _ => .other (.driver0 e)
  | _, .other e => .other (.driver1 e)

/-- `Deduplicator<N>` (`canadensis_can/src/redundant/deduplicator.rs` L25-34). -/
structure Deduplicator (N : Nat) where
  states : List (Option Instant)
  activeIndex : Nat
  timeout : Duration
deriving DecidableEq, Repr

variable {N : Nat}

/-- `Deduplicator::new` (`canadensis_can/src/redundant/deduplicator.rs` L41-49); panics for `N = 0`. -/
def Deduplicator.new (N : Nat) (timeout : Duration) : Option (Deduplicator N) :=
  if N = 0 then none else some { states := List.replicate N none, activeIndex := 0, timeout }

/-- `active_transport_timed_out` (`canadensis_can/src/redundant/deduplicator.rs` L72-84). -/
def Deduplicator.activeTimedOut (d : Deduplicator N) (now : Instant) : Option Bool :=
  match d.states[d.activeIndex]? with
  | none => none
  | some (some last) => some (Instant.after now (Instant.plus last d.timeout))
  | some none => some true

/-- `Deduplicator::accept` (`canadensis_can/src/redundant/deduplicator.rs` L57-69); panics for an index out of range. -/
def Deduplicator.accept (d : Deduplicator N) (frame : Frame) (index : Nat) : Option (Deduplicator N × Bool) :=
  if index < d.states.length then
    let d : Deduplicator N := { d with states := d.states.set index (some frame.timestamp) }
    match d.activeTimedOut frame.timestamp with
    | none => none
    | some timedOut =>
      let d : Deduplicator N := if timedOut then { d with activeIndex := index } else d
      some (d, index == d.activeIndex)
  else none

end Verif.Can
