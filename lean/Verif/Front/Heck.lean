import Verif.Front.Names

/-! # Conversions between naming styles

The functions of the crate `heck` 0.5.0 that the DSDL frontend and the code generator call. The crate is not in /repo: this is its documented algorithm, for ASCII characters (all
names in DSDL are ASCII). It belongs to the trusted base. -/

namespace Verif.Front.Heck

/-- `WordMode` in `transform` of heck: whether the current word has no letter yet, or what the case of its last letter was (heck, called from
canadensis_dsdl_frontend/src/warning.rs L3). -/
inductive Mode where
  | boundary
  | lower
  | upper
deriving DecidableEq, Repr

/-- `next_mode` in `transform` of heck: digits keep the mode (called from canadensis_dsdl_frontend/src/warning.rs L136, L146, L183, L198). -/
def Mode.next (mode : Mode) (c : Char) : Mode := if c.isLower then .lower else if c.isUpper then .upper else mode

/-- The loop over one run of letters and digits in `transform` of heck (called from canadensis_dsdl_frontend/src/warning.rs L136, L146, L183, L198): `word` is what was read of the
current word. A word ends between a lowercase letter (and digits) and an uppercase letter, and before the last of several uppercase letters if a lowercase letter follows. -/
def splitWords : List Char → Mode → List Char → List (List Char)
  | _, _, [] => []
  | word, _, [c] => [word ++ [c]]
  | word, mode, c :: next :: rest =>
    if mode.next c = .lower ∧ next.isUpper = true then (word ++ [c]) :: splitWords [] .boundary (next :: rest)
    else if mode = .upper ∧ c.isUpper = true ∧ next.isLower = true then word :: splitWords [c] .boundary (next :: rest)
    else splitWords (word ++ [c]) (mode.next c) (next :: rest)

/-- The runs of letters and digits: `s.split(|c: char| !c.is_alphanumeric())` in `transform` of heck (called from canadensis_dsdl_frontend/src/warning.rs L136, L146, L183, L198). -/
def runs : List Char → List (List Char)
  | [] => [[]]
  | c :: cs =>
    if c.isAlphanum then
      match runs cs with
      | r :: rs => (c :: r) :: rs
      | [] => [[c]]
    else [] :: runs cs

/-- The words of a name: `transform` of heck (called from canadensis_dsdl_frontend/src/warning.rs L136, L146, L183, L198). -/
def words (s : List Char) : List (List Char) := (runs s).flatMap (splitWords [] .boundary)

/-- Words with `_` between them (heck, called from canadensis_dsdl_frontend/src/warning.rs L136, L183, L198). -/
def underscored : List (List Char) → List Char
  | [] => []
  | [w] => w
  | w :: ws => w ++ '_' :: underscored ws

/-- `capitalize` of heck: the first letter in upper case, the others in lower case (called from canadensis_dsdl_frontend/src/warning.rs L146). -/
def capitalize : List Char → List Char
  | [] => []
  | c :: cs => c.toUpper :: cs.map Char.toLower

/-- `to_snake_case` of heck (called from canadensis_dsdl_frontend/src/warning.rs L136, L198 and canadensis_codegen_rust/src/lib.rs L664). -/
def snake (s : String) : String := String.ofList (underscored ((words s.toList).map (·.map Char.toLower)))

/-- `to_shouty_snake_case` of heck (called from canadensis_dsdl_frontend/src/warning.rs L183). -/
def shouty (s : String) : String := String.ofList (underscored ((words s.toList).map (·.map Char.toUpper)))

/-- `to_upper_camel_case` of heck (called from canadensis_dsdl_frontend/src/warning.rs L146 and canadensis_codegen_rust/src/lib.rs L555). -/
def upperCamel (s : String) : String := String.ofList ((words s.toList).flatMap capitalize)

end Verif.Front.Heck
