import Verif.End.StackModel
import Verif.End.Spec

/-!
Vocabulary for the way of a value through the transmitter, the queue and the controller of a device (C117).
-/

namespace Verif.End

open Verif.Node Verif.Dsdl Verif.Enc Verif.Can Verif.Drv

/-- The transfers that are given to the transmitter. -/
def sends (ops : List DeviceOp) : List CanTransfer := ops.filterMap fun op =>
  match op with
  | .send t => some t
  | _ => none

/-- The times that the clock shows. It shows 0 when nothing is said about it. -/
def shown (ops : List DeviceOp) : List Instant := ops.flatMap fun op =>
  match op with
  | .flush _ times turns => 0#32 :: times ++ turns.map (·.now)
  | _ => []

/-- What `push` returned for the messages on a subject. -/
def answersOn (subject : SubjectId) (answers : List (CanTransfer × PushResult Empty)) : List (PushResult Empty) :=
  (answers.filter fun a => match a.1.header with
    | .message h => decide (h.subject = subject)
    | _ => false).map Prod.snd

/-- The values whose messages `push` accepted. -/
def taken (values : List Val) (answers : List (PushResult Empty)) : List Val := ((values.zip answers).filter fun p => decide (p.2 = .ok)).map Prod.fst

/-- Of 30 messages in a row, at least one is accepted. -/
def NotAllRefused (answers : List (PushResult Empty)) : Prop := ∀ i, i + 30 ≤ answers.length → .ok ∈ (answers.drop i).take 30

/-- The frames of a session among those on the bus. -/
def inSession (key : Key) (fs : List Frame) : List Frame := fs.filter fun f => key.relevant (.frame f false)

/-- The transfer gives the value: `deserialize` makes an equal value of its payload. -/
def Delivered (m : Message) (v : Val) (t : CanTransfer) : Prop := ∃ w c, m.deserialize (ReadCursor.new t.payload) = some (.ok w, c) ∧ Same w v

end Verif.End
