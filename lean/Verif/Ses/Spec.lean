import Verif.Ses.Model

/-!
What the session tables should do: they are maps from nodes to sessions.
-/

namespace Verif.Ses

variable {N S : Type}

/-- A map from nodes to sessions. -/
abbrev Map (N S : Type) := N → Option S

/-- The map without sessions. -/
def Map.empty : Map N S := fun _ => none

/-- The map with another session, or none, for a node. -/
def Map.put [DecidableEq N] (m : Map N S) (node : N) (s : Option S) : Map N S := fun n => if n = node then s else m n

/-- A call on a map, and what it returns. -/
def Map.step [DecidableEq N] (m : Map N S) : Op N S → Map N S × Reply S
  | .get n => (m, .session (m n))
  | .getMut n f => (m.put n ((m n).map f), .session (m n))
  | .getMutOrInsertWith n g f => (m.put n (some (f ((m n).getD g))), .session (some ((m n).getD g)))
  | .insert n s => (m.put n (some s), .done)
  | .remove n => (m.put n none, .done)

/-- The node of a call. -/
def Op.node : Op N S → N
  | .get n => n
  | .getMut n _ => n
  | .getMutOrInsertWith n _ _ => n
  | .insert n _ => n
  | .remove n => n

/-- Calls that make a session if there is none. -/
def Op.inserts : Op N S → Bool
  | .getMutOrInsertWith _ _ _ => true
  | .insert _ _ => true
  | _ => false

/-- At least `c` nodes have sessions. -/
def Map.full (m : Map N S) (c : Nat) : Prop := ∃ nodes : List N, nodes.Nodup ∧ nodes.length = c ∧ ∀ n ∈ nodes, (m n).isSome = true

open Classical in
/-- A call on a map for at most `c` sessions: a call for a new session is refused if there are so many already. -/
noncomputable def Map.boundedStep [DecidableEq N] (c : Nat) (m : Map N S) (op : Op N S) : Map N S × Reply S :=
  if op.inserts = true ∧ m op.node = none ∧ m.full c then (m, .outOfMemory) else m.step op

/-- What a history of calls on a map returns. -/
def Map.replies (step : Map N S → Op N S → Map N S × Reply S) : Map N S → List (Op N S) → List (Reply S)
  | _, [] => []
  | m, op :: rest => (step m op).2 :: Map.replies step (step m op).1 rest

end Verif.Ses
