import Verif.Can.Frame

/-!
Queues of outgoing frames: `canadensis_can/src/queue/array_queue.rs` and `single_frame_queue.rs`.

A panic (index out of bounds, remainder by zero) is `none`. `wrapping_add` never wraps in these functions: both operands are
at most `N`, and an array of `N` frames has to fit into memory, so the sum is below 2^64; it is modelled by `+`.
-/

namespace Verif.Can

/-- `Frame::default()` (`canadensis_can/src/data.rs` L108-117). -/
def Frame.default : Frame := { timestamp := 0#32, id := 0#32, loopback := false, data := [] }

/-- `ArrayQueue<N>` (`canadensis_can/src/queue/array_queue.rs` L13-23). `items` has `N` elements. -/
structure ArrayQueue (N : Nat) where
  items : List Frame
  head : Nat
  length : Nat
deriving DecidableEq, Repr

/-- `ArrayQueue::new` (`canadensis_can/src/queue/array_queue.rs` L27-52). The `unsafe` code that fills the array with default
frames is modelled by its result. -/
def ArrayQueue.new (N : Nat) : ArrayQueue N := { items := List.replicate N Frame.default, head := 0, length := 0 }

/-- The remainder operator: panics if the divisor is zero. (Rust, as used in `canadensis_can/src/queue/array_queue.rs`.) -/
def modOrPanic (a n : Nat) : Option Nat := if n = 0 then none else some (a % n)

/-- `self.items[i] = frame`: panics if out of bounds. (Rust, as used in `canadensis_can/src/queue/array_queue.rs`.) -/
def setOrPanic (items : List Frame) (i : Nat) (f : Frame) : Option (List Frame) :=
  if i < items.length then some (items.set i f) else none

/-- `self.items.swap(a, b)`: panics if out of bounds. (Rust, as used in `canadensis_can/src/queue/array_queue.rs`.) -/
def swapOrPanic (items : List Frame) (a b : Nat) : Option (List Frame) :=
  match items[a]?, items[b]? with
  | some x, some y => some ((items.set a y).set b x)
  | _, _ => none

variable {N : Nat}

/-- `increment_head` (`canadensis_can/src/queue/array_queue.rs` L67-71). -/
def ArrayQueue.incrementHead (q : ArrayQueue N) : ArrayQueue N :=
  if N ≠ 0 then { q with head := (q.head + 1) % N } else q

/-- `decrement_head` (`canadensis_can/src/queue/array_queue.rs` L73-77). -/
def ArrayQueue.decrementHead (q : ArrayQueue N) : ArrayQueue N :=
  if N ≠ 0 then { q with head := (q.head + (N - 1)) % N } else q

/-- `ArrayQueue::try_reserve` (`canadensis_can/src/queue/array_queue.rs` L81-89). The subtraction would underflow for
`length > N`; that is `none`. -/
def ArrayQueue.tryReserve (q : ArrayQueue N) (additional : Nat) : Option Bool :=
  if q.length ≤ N then some (decide (N - q.length ≥ additional)) else none

/-- The `while` loop of `push_frame` (`canadensis_can/src/queue/array_queue.rs` L108-120). `fuel` bounds the number of
iterations; running out is `none`. -/
def moveUp (N head : Nat) (id : BitVec 32) : Nat → List Frame → Nat → Option (List Frame)
  | 0, _, _ => none
  | fuel + 1, items, inserted =>
    if inserted = head then some items
    else
      match modOrPanic (inserted + (N - 1)) N with
      | none => none
      | some ahead =>
        match items[ahead]? with
        | none => none
        | some f =>
          if f.id ≤ id then some items
          else
            match swapOrPanic items inserted ahead with
            | none => none
            | some items => moveUp N head id fuel items ahead

/-- `ArrayQueue::push_frame` (`canadensis_can/src/queue/array_queue.rs` L95-124). The result `false` is
`Err(OutOfMemoryError)`. -/
def ArrayQueue.pushFrame (q : ArrayQueue N) (frame : Frame) : Option (ArrayQueue N × Bool) :=
  if q.length = N then some (q, false)
  else
    match modOrPanic (q.head + q.length) N with
    | none => none
    | some tail =>
      match setOrPanic q.items tail frame with
      | none => none
      | some items =>
        match moveUp N q.head frame.id (N + 1) items tail with
        | none => none
        | some items => some ({ q with items, length := q.length + 1 }, true)

/-- `ArrayQueue::peek_frame` (`canadensis_can/src/queue/array_queue.rs` L126-132). -/
def ArrayQueue.peekFrame (q : ArrayQueue N) : Option (Option Frame) :=
  if q.length ≠ 0 then
    match q.items[q.head]? with
    | none => none
    | some f => some (some f)
  else some none

/-- `ArrayQueue::pop_frame` (`canadensis_can/src/queue/array_queue.rs` L134-143). -/
def ArrayQueue.popFrame (q : ArrayQueue N) : Option (ArrayQueue N × Option Frame) :=
  if q.length ≠ 0 then
    match q.items[q.head]? with
    | none => none
    | some f =>
      let q : ArrayQueue N := { q with items := q.items.set q.head Frame.default }
      let q := q.incrementHead
      some ({ q with length := q.length - 1 }, some f)
  else some (q, none)

/-- The `while` loop of `return_frame` (`canadensis_can/src/queue/array_queue.rs` L159-171). -/
def moveDown (N tail : Nat) (id : BitVec 32) : Nat → List Frame → Nat → Option (List Frame)
  | 0, _, _ => none
  | fuel + 1, items, inserted =>
    if inserted = tail then some items
    else
      match modOrPanic (inserted + 1) N with
      | none => none
      | some behind =>
        match items[behind]? with
        | none => none
        | some f =>
          if f.id ≥ id then some items
          else
            match swapOrPanic items inserted behind with
            | none => none
            | some items => moveDown N tail id fuel items behind

/-- `ArrayQueue::return_frame` (`canadensis_can/src/queue/array_queue.rs` L145-175). -/
def ArrayQueue.returnFrame (q : ArrayQueue N) (frame : Frame) : Option (ArrayQueue N × Bool) :=
  if q.length = N then some (q, false)
  else
    let q := q.decrementHead
    match setOrPanic q.items q.head frame with
    | none => none
    | some items =>
      let q : ArrayQueue N := { q with items, length := q.length + 1 }
      match modOrPanic (q.head + (q.length - 1)) N with
      | none => none
      | some tail =>
        match moveDown N tail frame.id (N + 1) q.items q.head with
        | none => none
        | some items => some ({ q with items }, true)

/-- `SingleFrameQueue` (`canadensis_can/src/queue/single_frame_queue.rs` L6-8). -/
structure SingleFrameQueue where
  frame : Option Frame
deriving DecidableEq, Repr

/-- `SingleFrameQueue::new` (`canadensis_can/src/queue/single_frame_queue.rs` L12-14). -/
def SingleFrameQueue.new : SingleFrameQueue := { frame := none }

/-- `SingleFrameQueue::try_reserve` (`canadensis_can/src/queue/single_frame_queue.rs` L24-30). -/
def SingleFrameQueue.tryReserve (q : SingleFrameQueue) (additional : Nat) : Bool :=
  q.frame.isNone && decide (additional = 1)

/-- `SingleFrameQueue::push_frame` (`canadensis_can/src/queue/single_frame_queue.rs` L36-43). -/
def SingleFrameQueue.pushFrame (q : SingleFrameQueue) (frame : Frame) : SingleFrameQueue × Bool :=
  if q.frame.isNone then ({ frame := some frame }, true) else (q, false)

/-- `SingleFrameQueue::peek_frame` (`canadensis_can/src/queue/single_frame_queue.rs` L45-47). -/
def SingleFrameQueue.peekFrame (q : SingleFrameQueue) : Option Frame := q.frame

/-- `SingleFrameQueue::pop_frame` (`canadensis_can/src/queue/single_frame_queue.rs` L49-51). -/
def SingleFrameQueue.popFrame (q : SingleFrameQueue) : SingleFrameQueue × Option Frame := ({ frame := none }, q.frame)

/-- `SingleFrameQueue::return_frame` (`canadensis_can/src/queue/single_frame_queue.rs` L53-60). -/
def SingleFrameQueue.returnFrame (q : SingleFrameQueue) (frame : Frame) : SingleFrameQueue × Bool :=
  if q.frame.isSome then (q, false) else ({ frame := some frame }, true)

end Verif.Can
