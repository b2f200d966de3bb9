import Verif.Can.RxModel

/-!
Vocabulary for the properties of the CAN receiver: histories of API calls and what is observed of one session.
-/

namespace Verif.Can

/-- Calls a user or the driver makes on a receiver. -/
inductive Op where
  /-- The driver supplies a frame; the allocator fails while it is handled if `oom`. -/
  | frame (f : Frame) (oom : Bool)
  | subscribeMessage (oom : Bool) (subject : SubjectId) (extent : Nat) (timeout : Duration)
  | subscribeRequest (oom : Bool) (service : ServiceId) (extent : Nat) (timeout : Duration)
  | subscribeResponse (oom : Bool) (service : ServiceId) (extent : Nat) (timeout : Duration)
  | unsubscribeMessage (subject : SubjectId)
  | unsubscribeRequest (service : ServiceId)
  | unsubscribeResponse (service : ServiceId)
  | setId (id : Option NodeId)
deriving DecidableEq, Repr

/-- Every frame has a 29-bit identifier (the invariant of `CanId`, `canadensis_can/src/data.rs` L31-42). -/
def Op.Valid : Op → Prop
  | .frame f _ => f.id.toNat < 2 ^ 29
  | _ => True

/-- One call; `none` is a panic, `Accepted` is what a frame produced (`nothing` for other calls). -/
def Receiver.step (checks : Bool) (r : Receiver) : Op → Option (Receiver × Accepted)
  | .frame f oom => r.acceptFrame checks oom f
  | .subscribeMessage oom subject extent timeout => some ((r.subscribeMessage oom subject extent timeout).1, .nothing)
  | .subscribeRequest oom service extent timeout =>
    some ((r.subscribeService oom .request service extent timeout).1, .nothing)
  | .subscribeResponse oom service extent timeout =>
    some ((r.subscribeService oom .response service extent timeout).1, .nothing)
  | .unsubscribeMessage subject => some ((r.unsubscribePort .message subject.toNat).1, .nothing)
  | .unsubscribeRequest service => some ((r.unsubscribePort .request service.toNat).1, .nothing)
  | .unsubscribeResponse service => some ((r.unsubscribePort .response service.toNat).1, .nothing)
  | .setId id => some (r.setId id, .nothing)

/-- A sequence of calls, with the transfers delivered along the way, in order; `none` is a panic. -/
def Receiver.exec (checks : Bool) : Receiver → List Op → Option (Receiver × List CanTransfer)
  | r, [] => some (r, [])
  | r, op :: ops =>
    match r.step checks op with
    | none => none
    | some (r1, a) =>
      match r1.exec checks ops with
      | none => none
      | some (r2, ts) =>
        some (r2, match a with
          | .transfer t => t :: ts
          | _ => ts)

/-- `History checks id ops r`: the calls `ops` on a new receiver with ID `id` did not panic and led to `r`. -/
inductive History (checks : Bool) (id : Option NodeId) : List Op → Receiver → Prop where
  | new : History checks id [] (Receiver.new id)
  | call {ops r op r' a} : History checks id ops r → op.Valid → r.step checks op = some (r', a) →
      History checks id (ops ++ [op]) r'

/-- What a session is identified by: transfer kind, port and source node. -/
structure Key where
  kind : Kind
  port : Nat
  source : NodeId
deriving DecidableEq, Repr

/-- The header and tail byte a receiver reads from a frame, if it passes the basic checks. -/
def readFrame (f : Frame) : Option (CanHeader × TailByte) :=
  match sanityCheck f with
  | some (some p) => some p
  | _ => none

/-- The header belongs to the session. -/
def Key.Matches (key : Key) (h : CanHeader) : Prop :=
  h.kind = key.kind ∧ h.port = key.port ∧ h.source = some key.source

instance (key : Key) (h : CanHeader) : Decidable (key.Matches h) := inferInstanceAs (Decidable (_ ∧ _ ∧ _))

/-- The call can affect the session: a frame of that session, a change of its subscription, or a change of node ID. -/
def Key.relevant (key : Key) : Op → Bool
  | .frame f _ =>
    match readFrame f with
    | some (h, _) => decide (key.Matches h)
    | none => false
  | .subscribeMessage _ s _ _ | .unsubscribeMessage s => decide (key.kind = .message ∧ key.port = s.toNat)
  | .subscribeRequest _ s _ _ | .unsubscribeRequest s => decide (key.kind = .request ∧ key.port = s.toNat)
  | .subscribeResponse _ s _ _ | .unsubscribeResponse s => decide (key.kind = .response ∧ key.port = s.toNat)
  | .setId _ => true

/-- What a receiver remembers for one session: the parameters of the subscription and the state for the source node. -/
structure View where
  timeout : Duration
  extent : Nat
  state : SessionState
deriving DecidableEq, Repr

/-- The subscription that handles a port. -/
def Receiver.find (r : Receiver) (k : Kind) (port : Nat) : Option Subscription :=
  (r.subs k).find? (fun s => s.port == port)

/-- The view of one session; `none` without a subscription. -/
def Receiver.view (r : Receiver) (key : Key) : Option View :=
  (r.find key.kind key.port).map (fun s => { timeout := s.timeout, extent := s.payloadSizeMax, state := s.states key.source })

/-- What the user configured: the node ID and, for each kind and port, the extent and timeout of the subscription. -/
structure Config where
  id : Option NodeId
  table : Kind → Nat → Option (Nat × Duration)

/-- A subscribe call sets the entry of its port. It can only fail (out of memory) when there was no entry, and then there
is still none. -/
def Config.subscribe (c : Config) (oom : Bool) (k : Kind) (p extent : Nat) (timeout : Duration) : Config :=
  if oom = true ∧ c.table k p = none then c
  else { c with table := fun k' p' => if k' = k ∧ p' = p then some (extent, timeout) else c.table k' p' }

/-- An unsubscribe call removes the entry of its port. -/
def Config.unsubscribe (c : Config) (k : Kind) (p : Nat) : Config :=
  { c with table := fun k' p' => if k' = k ∧ p' = p then none else c.table k' p' }

/-- The effect of one call on the configuration. An anonymous node cannot subscribe to services. -/
def Config.apply (c : Config) : Op → Config
  | .frame _ _ => c
  | .subscribeMessage oom s e to => c.subscribe oom .message s.toNat e to
  | .subscribeRequest oom s e to => if c.id.isSome then c.subscribe oom .request s.toNat e to else c
  | .subscribeResponse oom s e to => if c.id.isSome then c.subscribe oom .response s.toNat e to else c
  | .unsubscribeMessage s => c.unsubscribe .message s.toNat
  | .unsubscribeRequest s => c.unsubscribe .request s.toNat
  | .unsubscribeResponse s => c.unsubscribe .response s.toNat
  | .setId id => { c with id := id }

/-- The configuration after a history of calls on a receiver created with node ID `id`. -/
def Config.after (id : Option NodeId) (ops : List Op) : Config :=
  ops.foldl Config.apply { id := id, table := fun _ _ => none }

/-- The frames of a history, in order. -/
def framesOf (ops : List Op) : List Frame :=
  ops.filterMap (fun op => match op with
    | .frame f _ => some f
    | _ => none)

/-- The payload bytes of a frame: everything before the tail byte. -/
def Frame.body (f : Frame) : List Byte := f.data.take (f.data.length - 1)

/-- The frame belongs to the session and transfer, and its tail byte has these flags. -/
def Frame.IsPart (f : Frame) (key : Key) (tid : Tid) (loopback start end_ toggle : Bool) : Prop :=
  f.loopback = loopback ∧ ∃ h, readFrame f = some (h, { start, end_, toggle, transferId := tid }) ∧ key.Matches h

/-- `fs` is a well-formed sequence of frames of one transfer: the first frame and only that one is a start frame, the last
frame and only that one is an end frame if `complete` (otherwise there is none), and the toggle bit alternates starting from
one. -/
def TransferFrames (key : Key) (tid : Tid) (loopback complete : Bool) (fs : List Frame) : Prop :=
  ∀ i (hi : i < fs.length), (fs[i]).IsPart key tid loopback (decide (i = 0)) (complete && decide (i + 1 = fs.length))
    (decide (i % 2 = 0))

end Verif.Can
