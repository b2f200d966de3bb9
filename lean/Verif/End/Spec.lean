import Verif.Can.StreamSpec
import Verif.Dsdl.Props

/-!
Vocabulary for the way of a value from the `publish` of one node to the `deserialize` at another.
-/

namespace Verif.End

open Verif.Node Verif.Dsdl Verif.Enc

/-- The messages on a subject among the transfers. -/
def messagesOn {N Tid : Type} (subject : SubjectId) (ts : List (Transfer N Tid)) : List (Transfer N Tid) :=
  ts.filter fun t => match t.header with
    | .message h => decide (h.subject = subject)
    | _ => false

/-- A value that takes at most `extent` bytes, of the types and values to which C67 and C68 apply. -/
structure Sendable (m : Message) (extent : Nat) (v : Val) : Prop where
  good : m.good = true
  has : m.has v = true
  fits : m.fits v = true
  safe : m.safe v = true
  size : (m.sizeBits v + 7) / 8 ≤ extent

/-- The program of a node: it publishes values of the type `m` on `subject`, and may do anything else, but does not stop publishing on that subject and keeps its node ID. The
second list are the values for whose bytes there was memory (64 bytes are always there). -/
inductive Publishes {N Tid E : Type} (m : Message) (subject : SubjectId) : List (Op N Tid E) → List Val → Prop where
  | done : Publishes m subject [] []
  | value {env v loopback rest vs} : (64 < (m.sizeBits v + 7) / 8 → env.alloc = true) → Publishes m subject rest vs →
      Publishes m subject (.publish env subject (.of m.writer v) loopback :: rest) (v :: vs)
  | noMemory {env v loopback rest vs} : 64 < (m.sizeBits v + 7) / 8 → env.alloc = false → Publishes m subject rest vs →
      Publishes m subject (.publish env subject (.of m.writer v) loopback :: rest) vs
  | other {op rest vs} : ¬ op.stopsPublishing subject → (∀ env payload loopback, op ≠ .publish env subject payload loopback) → (∀ env id, op ≠ .setNodeId env id) →
      Publishes m subject rest vs → Publishes m subject (op :: rest) vs

/-- What the user of the receiving node gets for a published value: at most one transfer, nothing if no frame arrives, and if all frames arrive, a transfer from which
`deserialize` makes an equal value. -/
structure Received (m : Message) (item : Can.Item) (v : Val) (out : List Can.CanTransfer) : Prop where
  atMostOne : out.length ≤ 1
  lost : item.arrived = [] → out = []
  whole : item.Whole false → ∃ t w c now, out = [t] ∧ t.header = item.transfer.header.setTimestamp now ∧ m.deserialize (ReadCursor.new t.payload) = some (.ok w, c) ∧ Same w v

end Verif.End
