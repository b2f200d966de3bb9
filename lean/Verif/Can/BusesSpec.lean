import Verif.Can.StreamSpec
import Mathlib.Data.List.Chain
import Verif.Can.RedundantProps

/-!
What C139 is about: the same frames on several interfaces, through the deduplicator into one receiver.
-/

namespace Verif.Can

/-- A frame that one of the interfaces receives: when, on a clock that does not wrap, and, for a frame of the session in question, which of the frames sent in the session it is. -/
structure Arrival where
  frame : Frame
  interface : Nat
  time : Nat
  number : Option Nat
deriving DecidableEq, Repr

/-- What an application does with a `Deduplicator` (`canadensis_can/src/redundant/deduplicator.rs` L6-69): create it, ask it about each frame as it arrives, and pass on the frames for
which the answer is yes. -/
def passed (N timeout : Nat) (arrivals : List Arrival) : Option (List Arrival) :=
  (Deduplicator.new N (BitVec.ofNat 32 timeout)).bind fun d =>
    (d.run (arrivals.map fun a => (a.frame, a.interface))).map fun p => ((arrivals.zip p.2).filter fun x => x.2).map fun x => x.1

/-- The interfaces exist, the timestamps are those of a 32-bit microsecond clock, time does not go back, and less than half of the range of the clock, less the timeout, passes
between a frame and the next one. -/
structure Timed (N timeout : Nat) (arrivals : List Arrival) : Prop where
  interface : ∀ a ∈ arrivals, a.interface < N
  timestamp : ∀ a ∈ arrivals, a.frame.timestamp = BitVec.ofNat 32 a.time
  chain : List.IsChain (fun a b : Arrival => a.time ≤ b.time ∧ b.time + timeout < a.time + 2 ^ 31) arrivals

/-- On each interface, the frames of the session arrive in the order in which they were sent, each at most once. -/
def InOrder (arrivals : List Arrival) : Prop :=
  arrivals.Pairwise fun a b => a.interface = b.interface → ∀ n m, a.number = some n → b.number = some m → n < m

/-- No interface is more than the timeout behind another one: a frame of the session, or an earlier one, that arrives on another interface does so within the timeout. -/
def Abreast (timeout : Nat) (arrivals : List Arrival) : Prop :=
  arrivals.Pairwise fun a b => a.interface ≠ b.interface → ∀ n m, a.number = some n → b.number = some m → m ≤ n → b.time ≤ a.time + timeout

/-- The frames with numbers are those of the session, with the identifier and the data of the frame sent. -/
structure Numbered (key : Key) (lb : Bool) (frames : List Frame) (arrivals : List Arrival) : Prop where
  valid : ∀ a ∈ arrivals, a.frame.id.toNat < 2 ^ 29
  other : ∀ a ∈ arrivals, a.number = none → key.relevant (.frame a.frame false) = false
  same : ∀ a ∈ arrivals, ∀ n, a.number = some n →
    ∃ f, frames[n]? = some f ∧ a.frame.id = f.id ∧ a.frame.data = f.data ∧ a.frame.loopback = lb ∧ key.relevant (.frame a.frame false) = true

/-- Each transfer has the transfer ID after that of the one before. -/
def ConsecutiveIds (sent : List (CanTransfer × List Frame)) : Prop :=
  ∀ i (h : i + 1 < sent.length), (sent[i + 1]).1.header.transferId = (sent[i]).1.header.transferId.increment

/-- The transfers of a session, each with its frames and with those of the arrivals whose numbers are theirs; the frames before them are `start` in number. -/
def itemsOf (arrivals : List Arrival) : Nat → List (CanTransfer × List Frame) → List Item
  | _, [] => []
  | start, (t, fs) :: rest =>
    { transfer := t, frames := fs
      arrived := (arrivals.filter fun a => a.number.any fun n => decide (start ≤ n) && decide (n < start + fs.length)).map fun a => a.frame } ::
      itemsOf arrivals (start + fs.length) rest

/-- Interface `i` is never silent for longer than the timeout: whatever arrives on another interface arrives at most the timeout after something on `i`. -/
def Alive (timeout i : Nat) (arrivals : List Arrival) : Prop :=
  ∀ before b after, arrivals = before ++ b :: after → b.interface ≠ i → ∃ a ∈ before, a.interface = i ∧ b.time ≤ a.time + timeout

end Verif.Can
