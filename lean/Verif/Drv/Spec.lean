import Verif.Drv.Model

/-! Vocabulary for the properties of the bxCAN driver. -/

namespace Verif.Drv

open Verif.Can

/-- The ID, the data and the deadline of a frame. -/
def core (f : Frame) : BitVec 32 × List Byte × Instant := (f.id, f.data, f.timestamp)

/-- A frame that the controller can send: a 29-bit ID and at most eight bytes. -/
def Valid (f : Frame) : Prop := f.id.toNat < 2 ^ 29 ∧ f.data.length ≤ 8

/-- All frames to transmit are such. -/
def AllValid (ops : List BxOp) : Prop := ∀ env f, .transmit env f ∈ ops → Valid f

/-- The frames that `transmit` took: for which it returned `Ok`. -/
def taken : List BxOp → List BxAnswer → List Frame
  | .transmit _ f :: ops, .transmitted (.ok _) :: as => f :: taken ops as
  | _ :: ops, _ :: as => taken ops as
  | _, _ => []

/-- The frames with which `transmit` was called after their deadlines. -/
def tooLate : List BxOp → List Frame
  | .transmit env f :: ops => if Instant.before f.timestamp env.now then f :: tooLate ops else tooLate ops
  | _ :: ops => tooLate ops
  | [] => []

/-- The frames that `transmit` gave back because others took their places. -/
def givenBack : List BxAnswer → List Frame
  | .transmitted (.ok (some f)) :: as => f :: givenBack as
  | _ :: as => givenBack as
  | [] => []

/-- The frame of an event. -/
def BusEvent.frame : BusEvent → Frame
  | .sent f _ => f
  | .aborted f _ => f

/-- The frames that wait in mailboxes. -/
def BxCan.waiting (d : BxCan) : List Frame := ((d.boxes 0).toList ++ (d.boxes 1).toList ++ (d.boxes 2).toList).map (·.given)

/-- The copies of loopback frames that were put into the controller, with the time. -/
def copies : List BxOp → List BxAnswer → List Frame
  | .transmit env f :: ops, .transmitted (.ok _) :: as =>
    if f.loopback && !Instant.before f.timestamp env.now then { f with timestamp := env.now } :: copies ops as else copies ops as
  | _ :: ops, _ :: as => copies ops as
  | _, _ => []

/-- The loopback frames that `receive` returned. -/
def receivedCopies : List BxAnswer → List Frame
  | .received (.frame f) :: as => if f.loopback then f :: receivedCopies as else receivedCopies as
  | _ :: as => receivedCopies as
  | [] => []

/-- Something that is worth returning: an extended frame with data, or the error. -/
inductive Worth where
  | frame (id : BitVec 32) (data : List Byte)
  | overrun
deriving DecidableEq

def RxItem.worth : RxItem → Option Worth
  | .frame ⟨.extended id, some data⟩ => some (.frame (id.setWidth 32) data)
  | .frame _ => none
  | .overrun => some .overrun

/-- What the controller received. -/
def arrivals : List BxOp → List RxItem
  | .arrive x :: ops => x :: arrivals ops
  | _ :: ops => arrivals ops
  | [] => []

/-- What `receive` returned from the bus. -/
def receivedWorth : List BxAnswer → List Worth
  | .received (.frame f) :: as => if f.loopback then receivedWorth as else .frame f.id f.data :: receivedWorth as
  | .received .overrun :: as => .overrun :: receivedWorth as
  | _ :: as => receivedWorth as
  | [] => []

end Verif.Drv
