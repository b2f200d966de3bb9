import Verif.Serial.Props

/-!
Vocabulary for streams: many transfers, one after the other, over one serial link.
-/

namespace Verif.Serial

open Verif.Hdr (NodeId16)

/-- The extent for a transfer with this header, if the receiver has a subscription for it and the transfer is a message or is addressed to this node. -/
def Receiver.accepts (r : Receiver) (h : SerialHeader) : Option Nat :=
  match r.subscriptions.find h.kind h.port with
  | none => none
  | some sub =>
    match h.destination with
    | none => some sub.payloadSizeMax
    | some d => if r.nodeId = some d then some sub.payloadSizeMax else none

/-- The session of a transfer: the kind, the port and the source. -/
abbrev SessionKey : Type := Kind × Nat × Option NodeId16

def sessionOf (t : SerialTransfer) : SessionKey := (t.header.kind, t.header.port, t.header.source)

/-- The transfers of the sessions `keep`. -/
def ofSessions (keep : SessionKey → Bool) (ts : List SerialTransfer) : List SerialTransfer := ts.filter fun t => keep (sessionOf t)

/-- In each session (but for the anonymous ones), the transfer IDs of the transfers that the receiver accepts increase. -/
def Receiver.Increasing (r : Receiver) (ts : List SerialTransfer) : Prop :=
  ts.Pairwise fun a b => r.accepts a.header ≠ none → r.accepts b.header ≠ none → sessionOf a = sessionOf b → a.header.source ≠ none →
    a.header.transferId < b.header.transferId

/-- The receiver has not yet had a transfer of the session of `t` with this ID or a later one. -/
def Fresh (r : Receiver) (t : SerialTransfer) : Prop :=
  ∀ sub s session, r.subscriptions.find t.header.kind t.header.port = some sub → t.header.source = some s → sub.sessions s = some session →
    session.lastTransferId < t.header.transferId

/-- The transfer as it is returned: with a time, and cut to the extent. -/
def IsReceived (t : SerialTransfer) (extent : Nat) (out : SerialTransfer) : Prop :=
  ∃ now, out = { header := t.header.setTimestamp now, loopback := false, payload := t.payload.take extent }

/-- The transfers that the receiver accepts, each with the extent. -/
def Receiver.accepted (r : Receiver) (ts : List SerialTransfer) : List (SerialTransfer × Nat) :=
  ts.filterMap fun t => (r.accepts t.header).map fun extent => (t, extent)

end Verif.Serial
