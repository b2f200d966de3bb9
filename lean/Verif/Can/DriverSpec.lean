import Verif.Can.DriverModel
import Verif.Can.QueueSpec

/-! Vocabulary for the properties of drivers made of queues and other drivers. -/

namespace Verif.Can

/-- A queue that some sequence of calls on a new queue leads to. -/
def ArrayQueue.Reachable {N : Nat} (q : ArrayQueue N) : Prop := ∃ ops answers, (ArrayQueue.new N).run ops = some (q, answers)

/-- What one event of a flush means for a plain list of frames in priority order; `none` if the event is not allowed. Only the
first frame may leave the list, a frame may be dropped only after its deadline, and a refused frame stays first. -/
def FlushEvent.onList (l : List Frame) : FlushEvent → Option (List Frame)
  | .expired f now => if l.head? = some f ∧ Instant.after now f.timestamp = true then some l.tail else none
  | .accepted f => if l.head? = some f then some l.tail else none
  | .displaced f => some (insertBefore f l)
  | .displacedExpired f now => if Instant.after now f.timestamp = true then some l else none
  | .refused f => if l.head? = some f then some l else none
  | .failed f => if l.head? = some f then some l.tail else none

/-- The list after a sequence of events. -/
def onList : List Frame → List FlushEvent → Option (List Frame)
  | l, [] => some l
  | l, e :: es => (e.onList l).bind (fun l => onList l es)

/-- The frame that the driver took over, if the event is such. -/
def FlushEvent.accepted? : FlushEvent → Option Frame
  | .accepted f => some f
  | _ => none

/-- The frame that was dropped because its deadline had passed. -/
def FlushEvent.expired? : FlushEvent → Option Frame
  | .expired f _ => some f
  | _ => none

/-- The frame that the driver gave back for the queue. -/
def FlushEvent.displaced? : FlushEvent → Option Frame
  | .displaced f => some f
  | _ => none

/-- The frame on which the driver failed with an error other than `WouldBlock`. -/
def FlushEvent.failed? : FlushEvent → Option Frame
  | .failed f => some f
  | _ => none

/-- The frame that was handed to the driver, and whether the driver took it. -/
def FlushEvent.offered? : FlushEvent → Option (Frame × Bool)
  | .accepted f => some (f, true)
  | .refused f => some (f, false)
  | .failed f => some (f, false)
  | _ => none

variable {σ E : Type}

/-- Whether a driver took a frame. -/
def TransmitResult.taken : TransmitResult E → Bool
  | .ok _ => true
  | _ => false

/-- A driver that does the same as `t` and writes down the frames that it is given and whether it takes them. -/
def FlushTarget.recording (t : FlushTarget σ E) : FlushTarget (σ × List (Frame × Bool)) E where
  now s := (((t.now s.1).1, s.2), (t.now s.1).2)
  transmit s f := (((t.transmit s.1 f).1, s.2 ++ [(f, (t.transmit s.1 f).2.taken)]), (t.transmit s.1 f).2)

/-- The driver never gives back a frame that it took earlier. -/
def FlushTarget.NeverDisplaces (t : FlushTarget σ E) : Prop := ∀ s f removed, (t.transmit s f).2 ≠ .ok (some removed)

/-- The driver takes every frame. -/
def FlushTarget.TakesAll (t : FlushTarget σ E) : Prop := ∀ s f, (t.transmit s f).2.taken = true

end Verif.Can
