import Verif.Basic

/-!
The session tables of `canadensis_core/src/session.rs`.

A session is a value of any type `S` (`Session`, L50-74). Nothing in this file looks into it. `none` is a panic.
-/

namespace Verif.Ses

variable {N S : Type}

/-- What a call returns, where a reference is the session that it points to: a session or none, `()`, or an `OutOfMemoryError`
(canadensis_core/src/session.rs L17-48). -/
inductive Reply (S : Type) where
  | session (s : Option S)
  | done
  | outOfMemory
deriving DecidableEq, Repr

/-- A call of a `SessionTracker` (canadensis_core/src/session.rs L17-48). A mutable reference is a function that the caller applies to the session. -/
inductive Op (N S : Type) where
  | get (node : N)
  | getMut (node : N) (change : S → S)
  | getMutOrInsertWith (node : N) (generator : S) (change : S → S)
  | insert (node : N) (session : S)
  | remove (node : N)

/-! ### `SessionLinearMap` -/

/-- `LinearMap::get` and `contains_key` (crate `heapless`, not in /repo): linear search. -/
def linearFind [DecidableEq N] (node : N) : List (N × S) → Option S
  | [] => none
  | (n, s) :: rest => if n = node then some s else linearFind node rest

/-- A change through the reference from `LinearMap::get_mut` (crate `heapless`, not in /repo). -/
def linearChange [DecidableEq N] (node : N) (change : S → S) : List (N × S) → List (N × S)
  | [] => []
  | (n, s) :: rest => if n = node then (n, change s) :: rest else (n, s) :: linearChange node change rest

/-- `LinearMap::insert` (crate `heapless`, not in /repo) with capacity `c`: replaces the value if the key is there, or appends; `none` if it is full. -/
def linearInsert [DecidableEq N] (c : Nat) (node : N) (session : S) (map : List (N × S)) : Option (List (N × S)) :=
  match linearFind node map with
  | some _ => some (linearChange node (fun _ => session) map)
  | none => if map.length < c then some (map ++ [(node, session)]) else none

/-- `Vec::swap_remove` (crate `heapless`, not in /repo): the last element takes the place. -/
def swapRemove {α : Type} (l : List α) (i : Nat) : List α :=
  match l.getLast? with
  | none => l
  | some last => if i + 1 = l.length then l.dropLast else (l.set i last).dropLast

/-- `LinearMap::remove` (crate `heapless`, not in /repo). -/
def linearRemove [DecidableEq N] (node : N) (map : List (N × S)) : List (N × S) :=
  match map.findIdx? (fun p => p.1 = node) with
  | none => map
  | some i => swapRemove map i

/-- The calls of a `SessionLinearMap` with capacity `c` (canadensis_core/src/session.rs L88-132). -/
def linearStep [DecidableEq N] (c : Nat) (map : List (N × S)) : Op N S → Option (List (N × S) × Reply S)
  | .get n => some (map, .session (linearFind n map))
  | .getMut n f => some (linearChange n f map, .session (linearFind n map))
  | .getMutOrInsertWith n g f =>
    match (match linearFind n map with | some _ => some map | none => linearInsert c n g map) with
    | none => some (map, .outOfMemory)
    | some map =>
      match linearFind n map with
      | none => none
      | some s => some (linearChange n f map, .session (some s))
  | .insert n s =>
    match linearInsert c n s map with
    | none => some (map, .outOfMemory)
    | some map => some (map, .done)
  | .remove n => some (linearRemove n map, .done)

/-! ### `SessionArray` -/

/-- The calls of a `SessionArray` (canadensis_core/src/session.rs L140-181). `index` is `N: Into<usize>`. -/
def arrayStep (index : N → Nat) (slots : List (Option S)) : Op N S → Option (List (Option S) × Reply S)
  | .get n =>
    match slots[index n]? with
    | none => none
    | some slot => some (slots, .session slot)
  | .getMut n f =>
    match slots[index n]? with
    | none => none
    | some slot => some (slots.set (index n) (slot.map f), .session slot)
  | .getMutOrInsertWith n g f =>
    match slots[index n]? with
    | none => none
    | some slot =>
      let entry := match slot with | none => g | some s => s
      some (slots.set (index n) (some (f entry)), .session (some entry))
  | .insert n s => if index n < slots.length then some (slots.set (index n) (some s), .done) else none
  | .remove n => if index n < slots.length then some (slots.set (index n) none, .done) else none

/-! ### `SessionDynamicMap` -/

/-- `Ord` (no counterpart in /repo): whether a node is less than another one. -/
abbrev Less (N : Type) := N → N → Bool

/-- `BTreeMap::get` (standard library, not in /repo), for a map that is the list of its entries in the order of the keys. -/
def treeFind [DecidableEq N] (less : Less N) (node : N) : List (N × S) → Option S
  | [] => none
  | (n, s) :: rest => if less node n then none else if n = node then some s else treeFind less node rest

/-- `BTreeMap::insert` (standard library, not in /repo). -/
def treeInsert [DecidableEq N] (less : Less N) (node : N) (session : S) : List (N × S) → List (N × S)
  | [] => [(node, session)]
  | (n, s) :: rest =>
    if less node n then (node, session) :: (n, s) :: rest else if n = node then (n, session) :: rest else (n, s) :: treeInsert less node session rest

/-- `BTreeMap::remove` (standard library, not in /repo). -/
def treeRemove [DecidableEq N] (less : Less N) (node : N) : List (N × S) → List (N × S)
  | [] => []
  | (n, s) :: rest => if less node n then (n, s) :: rest else if n = node then rest else (n, s) :: treeRemove less node rest

/-- The calls of a `SessionDynamicMap` (canadensis_core/src/session.rs L189-236). An allocation that fails aborts the program and is not modelled. -/
def dynamicStep [DecidableEq N] (less : Less N) (map : List (N × S)) : Op N S → Option (List (N × S) × Reply S)
  | .get n => some (map, .session (treeFind less n map))
  | .getMut n f =>
    match treeFind less n map with
    | none => some (map, .session none)
    | some s => some (treeInsert less n (f s) map, .session (some s))
  | .getMutOrInsertWith n g f =>
    match treeFind less n map with
    | none => some (treeInsert less n (f g) map, .session (some g))
    | some s => some (treeInsert less n (f s) map, .session (some s))
  | .insert n s => some (treeInsert less n s map, .done)
  | .remove n => some (treeRemove less n map, .done)

/-! ### Histories -/

/-- A history of calls (no counterpart in /repo): what they return; `none` is a panic. -/
def replies {T : Type} (step : T → Op N S → Option (T × Reply S)) : T → List (Op N S) → Option (List (Reply S))
  | _, [] => some []
  | t, op :: rest =>
    match step t op with
    | none => none
    | some (t, r) => (replies step t rest).map (r :: ·)

end Verif.Ses
