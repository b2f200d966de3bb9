import Verif.Macro.Model

/-! # What can be written in `types_from_dsdl!`, and what it means -/

namespace Verif.Macro

open Verif.Front (TypeKey ExternalPackages Item ModuleTree generateItems)
open Verif.Pkg (Call afterCalls KeyText)

/-- A part of a path: a string, or the directory of the crate. -/
inductive PathPart where
  | text (value : String)
  | manifestDir

/-- What a statement asks for. -/
inductive Command where
  | package (path : List PathPart)
  | makeExternal (package rustModule : List String)
  | type (name dsdl : String)
  | generate

/-! ### How it is written -/

/-- The tokens of a part of a path: `"text"` or `$CARGO_MANIFEST_DIR`. -/
def PathPart.tokens : PathPart → List Token
  | .text value => [.str value]
  | .manifestDir => [.punct '$', .ident "CARGO_MANIFEST_DIR"]

/-- The arguments of `package`: parts with commas between them, and possibly one at the end. -/
inductive PathText : List PathPart → List Token → Prop
  | none : PathText [] []
  | last (part : PathPart) : PathText [part] part.tokens
  | more {parts : List PathPart} {ts : List Token} (part : PathPart) (rest : PathText parts ts) : PathText (part :: parts) (part.tokens ++ .punct ',' :: ts)

/-- Names with some tokens between them. -/
def joined (between : List Token) : List String → List Token
  | [] => []
  | [name] => [.ident name]
  | name :: names => .ident name :: between ++ joined between names

/-- The tokens of a statement: `package(...)`, `make_external(a.b, c::d)`, `type "a.B.1.0" { "..." }`, `generate()`. `make_external` allows `::` at the end, and `generate` any arguments. -/
inductive CommandText : Command → List Token → Prop
  | package {path : List PathPart} {ts : List Token} (h : PathText path ts) : CommandText (.package path) [.ident "package", .group .parenthesis ts]
  | makeExternal {package rustModule : List String} (hp : package ≠ []) (hm : rustModule ≠ []) (colons : List Token) (hc : colons = [] ∨ colons = [.punct ':', .punct ':']) :
      CommandText (.makeExternal package rustModule)
        [.ident "make_external", .group .parenthesis (joined [.punct '.'] package ++ .punct ',' :: (joined [.punct ':', .punct ':'] rustModule ++ colons))]
  | type (name dsdl : String) : CommandText (.type name dsdl) [.ident "type", .str name, .group .brace [.str dsdl]]
  | generate (arguments : List Token) : CommandText .generate [.ident "generate", .group .parenthesis arguments]

/-- The tokens of some statements: those of one after those of another. -/
inductive InputText : List Command → List Token → Prop
  | none : InputText [] []
  | more {c : Command} {cs : List Command} {ts rest : List Token} (h : CommandText c ts) (more : InputText cs rest) : InputText (c :: cs) (ts ++ rest)

/-! ### What it means -/

/-- The text of a part of a path; `none` if the environment variable is not set. -/
def PathPart.value (w : World) : PathPart → Option String
  | .text value => some value
  | .manifestDir => w.manifestDir

/-- The text of a path: those of its parts, one after another. -/
def pathText (w : World) (parts : List PathPart) : Option String := (parts.mapM (PathPart.value w)).map fun values => values.foldl (· ++ ·) ""

/-- What is done to the package for the statements, in order: directories and texts are added. -/
inductive Calls (w : World) : List Command → List Call → Prop
  | none : Calls w [] []
  | package {cs : List Command} {calls : List Call} {parts : List PathPart} {path : String} {root : List Pkg.OsStr} {listing : List (Option Pkg.Entry)}
      (hp : pathText w parts = some path) (hd : w.directory path = some (root, listing)) (rest : Calls w cs calls) :
      Calls w (.package parts :: cs) (.addFiles root listing :: calls)
  | type {cs : List Command} {calls : List Call} {name dsdl : String} {key : TypeKey} (hk : KeyText key name.toList) (rest : Calls w cs calls) :
      Calls w (.type name dsdl :: cs) (.addString none key dsdl :: calls)
  | makeExternal {cs : List Command} {calls : List Call} {package rustModule : List String} (rest : Calls w cs calls) : Calls w (.makeExternal package rustModule :: cs) calls

/-- Every call is successful. -/
def Successful (w : World) (calls : List Call) : Prop := ∀ before c after, calls = before ++ c :: after → (c.run w.nd (afterCalls w.nd before)).1 = .ok

/-- The packages that are marked as external, with the Rust modules for them. -/
def externals (cs : List Command) : ExternalPackages := cs.filterMap fun | .makeExternal package rustModule => some (package, rustModule) | _ => none

/-- The result of some statements: packages and types can be added, and no package is marked as external twice; then there is the code for the types if `generate` is at the end, and no
code otherwise. -/
def Result (w : World) (cs : List Command) (out : Option ModuleTree) : Prop :=
  ∃ adds calls, Calls w adds calls ∧ Successful w calls ∧ ((externals adds).map Prod.fst).Nodup ∧
    ((cs = adds ∧ out = none) ∨
      (cs = adds ++ [.generate] ∧ ∃ types items, (afterCalls w.nd calls).compile w.x w.disk = .ok types ∧
        generateItems Front.Heck.snake w.asEnum (externals adds) types = .ok items ∧ out = some (ModuleTree.fromItems items)))

end Verif.Macro
