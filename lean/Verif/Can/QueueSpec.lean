import Verif.Can.QueueModel

/-!
Vocabulary for the properties of frame queues: a priority queue as a plain list, without ring buffer or indices. Lower CAN
IDs have higher priority.
-/

namespace Verif.Can

/-- Put a frame behind all frames with an equal or lesser CAN ID and in front of all others. -/
def insertBehind (f : Frame) (l : List Frame) : List Frame :=
  l.filter (fun g => decide (g.id ≤ f.id)) ++ f :: l.filter (fun g => decide (f.id < g.id))

/-- Put a frame behind all frames with a lesser CAN ID and in front of all others. -/
def insertBefore (f : Frame) (l : List Frame) : List Frame :=
  l.filter (fun g => decide (g.id < f.id)) ++ f :: l.filter (fun g => decide (f.id ≤ g.id))

/-- The queue is in order of priority. -/
def Ordered (l : List Frame) : Prop := l.Pairwise (fun a b => a.id ≤ b.id)

/-- Calls on a queue. -/
inductive QueueOp where
  | tryReserve (n : Nat)
  | push (f : Frame)
  | peek
  | pop
  | return_ (f : Frame)
deriving DecidableEq, Repr

/-- What a call returns: success or out of memory, or a frame if there is one. -/
inductive QueueAnswer where
  | done (ok : Bool)
  | frame (f : Option Frame)
deriving DecidableEq, Repr

/-- How a priority queue of capacity `cap` that holds `l` answers a call, and what it holds afterwards. -/
def specStep (cap : Nat) (l : List Frame) : QueueOp → List Frame × QueueAnswer
  | .tryReserve n => (l, .done (decide (l.length + n ≤ cap)))
  | .push f => if l.length < cap then (insertBehind f l, .done true) else (l, .done false)
  | .peek => (l, .frame l.head?)
  | .pop => (l.tail, .frame l.head?)
  | .return_ f => if l.length < cap then (insertBefore f l, .done true) else (l, .done false)

/-- The answers of the priority queue to a sequence of calls, and what it holds in the end. -/
def specRun (cap : Nat) : List Frame → List QueueOp → List Frame × List QueueAnswer
  | l, [] => (l, [])
  | l, op :: ops =>
    let r := specStep cap l op
    let t := specRun cap r.1 ops
    (t.1, r.2 :: t.2)

/-- One call on the array queue; `none` is a panic. -/
def ArrayQueue.step {N : Nat} (q : ArrayQueue N) : QueueOp → Option (ArrayQueue N × QueueAnswer)
  | .tryReserve n => (q.tryReserve n).map (fun b => (q, .done b))
  | .push f => (q.pushFrame f).map (fun p => (p.1, .done p.2))
  | .peek => q.peekFrame.map (fun f => (q, .frame f))
  | .pop => q.popFrame.map (fun p => (p.1, .frame p.2))
  | .return_ f => (q.returnFrame f).map (fun p => (p.1, .done p.2))

/-- A sequence of calls on the array queue. -/
def ArrayQueue.run {N : Nat} : ArrayQueue N → List QueueOp → Option (ArrayQueue N × List QueueAnswer)
  | q, [] => some (q, [])
  | q, op :: ops =>
    match q.step op with
    | none => none
    | some (q, a) => (q.run ops).map (fun p => (p.1, a :: p.2))

/-- The frames in an array queue in the order in which they are popped. -/
def ArrayQueue.toList {N : Nat} (q : ArrayQueue N) : List Frame :=
  (q.items.drop q.head ++ q.items.take q.head).take q.length

/-- One call on the single-frame queue. -/
def SingleFrameQueue.step (q : SingleFrameQueue) : QueueOp → SingleFrameQueue × QueueAnswer
  | .tryReserve n => (q, .done (q.tryReserve n))
  | .push f => ((q.pushFrame f).1, .done (q.pushFrame f).2)
  | .peek => (q, .frame q.peekFrame)
  | .pop => (q.popFrame.1, .frame q.popFrame.2)
  | .return_ f => ((q.returnFrame f).1, .done (q.returnFrame f).2)

/-- A sequence of calls on the single-frame queue. -/
def SingleFrameQueue.run : SingleFrameQueue → List QueueOp → SingleFrameQueue × List QueueAnswer
  | q, [] => (q, [])
  | q, op :: ops =>
    let r := q.step op
    let t := r.1.run ops
    (t.1, r.2 :: t.2)

end Verif.Can
