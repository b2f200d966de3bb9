import Verif.End.SerialSpec
import Verif.Udp.StreamSpec

/-!
Vocabulary for the way of a value from `publish` to `deserialize` over UDP.
-/

namespace Verif.End

open Verif.Udp

/-- A socket that, in addition, keeps a record of the datagrams that it is given. -/
def recorded {σ E : Type} (env : Env σ E) : Env (σ × List (List Byte)) E where
  now s := (((env.now s.1).1, s.2), (env.now s.1).2)
  sendTo s d ip port := (((env.sendTo s.1 d ip port).1, s.2 ++ [d]), (env.sendTo s.1 d ip port).2)

/-- The transmitter was given the transfer, with the socket in any state, and some of the datagrams that it sent before the deadline and before an error of the socket arrived, in order, while the
receiver had memory. -/
structure Ships {σ E : Type} (env : Env σ E) (mtu : Nat) (port : BitVec 16) (it : Shipment) : Prop where
  pieces : Pieces mtu it.transfer it.chunks
  pushed : ∃ s s' sent result, push (recorded env) mtu port it.transfer (s, []) = some ((s', sent), result) ∧ (it.arrived.map (·.data)).Sublist sent
  memory : ∀ p ∈ it.arrived, p.oom = false ∧ p.oomSession = false

end Verif.End
