/-!
Shared abbreviations of the model.
-/

namespace Verif

/-- Rust `u8`. -/
abbrev Byte := BitVec 8

/-- The `i`-th bit of `x`, least significant first, as a Boolean. -/
abbrev bit {w : Nat} (x : BitVec w) (i : Nat) : Bool := x.getLsbD i

end Verif
