import Verif.Macro.Props

/-!
Model of the program `canadensis_generate_code` (canadensis_codegen_rust/src/main.rs). What the crate clap does with the options is from its documentation: the crate is not in /repo.
-/

namespace Verif.Macro

open Verif.Front (TypeKey Outcome ExternalPackages Item ModuleTree generateItems)
open Verif.Pkg (Package)

/-- `str::split` by a character (used in canadensis_codegen_rust/src/main.rs L189, L194). -/
def splitChar (at_ : Char) : List Char → List (List Char)
  | [] => [[]]
  | c :: cs =>
    if c = at_ then [] :: splitChar at_ cs
    else
      match splitChar at_ cs with
      | part :: parts => (c :: part) :: parts
      | [] => [[c]]

/-- `str::split("::")` (used in canadensis_codegen_rust/src/main.rs L195). -/
def splitColons : List Char → List (List Char)
  | [] => [[]]
  | [c] => [[c]]
  | c :: d :: cs =>
    if c = ':' ∧ d = ':' then [] :: splitColons cs
    else
      match splitColons (d :: cs) with
      | part :: parts => (c :: part) :: parts
      | [] => [[c]]

/-- `ExternalPackage::parse` (canadensis_codegen_rust/src/main.rs L187-197): the package and the Rust module. -/
def parseExternalPackage (s : String) : Option (List String × List String) :=
  match splitChar ',' s.toList with
  | package :: rustModule :: _ => some ((splitChar '.' package).map String.ofList, (splitColons rustModule).map String.ofList)
  | _ => none

/-- The options of the command `compile` (canadensis_codegen_rust/src/main.rs L110-147). `external` is `none` without the option `--external-package`, and otherwise its values. -/
structure Options where
  input : List String
  external : Option (List String)
  rustfmt : Bool

/-- What the command leaves behind (canadensis_codegen_rust/src/main.rs L24-58): the code in the output file, if it was written; whether rustfmt was started; and whether the program reports
success. -/
structure Ended where
  written : Option ModuleTree
  formatted : Bool
  success : Bool

/-- The external packages of `get_args` (canadensis_codegen_rust/src/main.rs L158-166). The option is declared with a parser that makes an `ExternalPackage` (L137), but is read with
`get_many::<String>`: clap panics if the types differ and the option is there. A value that the parser refuses ends the program with an error before that. -/
def externalArgs : Option (List String) → Outcome ExternalPackages
  | none => .ok []
  | some values => if values.all fun v => (parseExternalPackage v).isSome then .panic else .error

/-- The loop over the directories in `run` (canadensis_codegen_rust/src/main.rs L33-36). -/
def addInputs (w : World) : Package → List String → Outcome Package
  | p, [] => .ok p
  | p, path :: rest => (addDirectory w p path).bind fun p => addInputs w p rest

/-- `run` for the command `compile` (canadensis_codegen_rust/src/main.rs L23-63, L148-171), where `rustfmtWorks` says that rustfmt can be started and succeeds. Simplified: warnings are
printed to the error output and are left out, and the output file can be written. `matches.contains_id("rustfmt")` is `true` also without the option: an option without values has the
action `SetTrue` with the value `false` by default. -/
def runCompile (w : World) (rustfmtWorks : Bool) (o : Options) : Outcome Ended :=
  (externalArgs o.external).bind fun ext =>
    match (addInputs w [] o.input).bind fun p => evalGenerateFunction w p ext with
    | .ok tree => .ok ⟨some tree, true, rustfmtWorks⟩
    | .error => .ok ⟨none, false, false⟩
    | .panic => .panic

end Verif.Macro
