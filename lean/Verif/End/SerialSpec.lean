import Verif.End.Spec
import Verif.Serial.StreamSpec

/-!
Vocabulary for the way of a value from `publish` to `deserialize` over a serial link.
-/

namespace Verif.End

open Verif.Dsdl Verif.Enc Verif.Serial

/-- The transfers that are handed to the transmit queue, in order. -/
def pushesOf : List TxOp → List SerialTransfer
  | [] => []
  | .push _ t :: ops => t :: pushesOf ops
  | .flush :: ops => pushesOf ops

/-- `deserialize` makes an equal value of the payload. -/
def ReadsAs (m : Message) (v : Val) (t : SerialTransfer) : Prop :=
  ∃ w c, m.deserialize (ReadCursor.new t.payload) = some (.ok w, c) ∧ Same w v

end Verif.End
