import Verif.Front.GenProps
import Mathlib.Data.String.Basic

/-!
The names of the Rust types generated for DSDL types, and the modules that they are put into (canadensis_codegen_rust/src/lib.rs, module_tree.rs).
-/

namespace Verif.Front

/-- The packages that code was generated for elsewhere, each with the Rust module of that code (canadensis_codegen_rust/src/lib.rs L55-58). -/
abbrev ExternalPackages := List (List String × List String)

/-- The loop in `external_module` (canadensis_codegen_rust/src/lib.rs L82-95), for the prefixes of this length and shorter. -/
def externalFrom (package : List String) (ext : ExternalPackages) : Nat → Option (List String)
  | 0 => none
  | i + 1 =>
    match ext.lookup (package.take (i + 1)) with
    | some rustModule => some (rustModule ++ package.drop (i + 1))
    | none => externalFrom package ext i

/-- `external_module` (canadensis_codegen_rust/src/lib.rs L78-97). -/
def externalModule (package : List String) (ext : ExternalPackages) : Option (List String) := externalFrom package ext package.length

/-- `make_rust_identifier` (canadensis_codegen_rust/src/lib.rs L727-735). -/
def makeRustIdentifier (identifier : String) : String := if identifier = "_" then identifier ++ "0" else identifier

/-- `RustTypeName` (canadensis_codegen_rust/src/lib.rs L649-655). -/
structure RustTypeName where
  internal : Bool
  path : List String
  typeName : String
deriving DecidableEq, Repr

/-- The name of the module for a version of a type (canadensis_codegen_rust/src/lib.rs L662-667). `snake` is `to_snake_case` of the crate heck. -/
def versionModule (snake : String → String) (key : TypeKey) : String := snake key.name ++ "_" ++ toString key.major ++ "_" ++ toString key.minor

/-- `RustTypeName::for_message_type` (canadensis_codegen_rust/src/lib.rs L658-700). -/
def RustTypeName.forMessageType (snake : String → String) (key : TypeKey) (ext : ExternalPackages) : RustTypeName :=
  match externalModule key.path ext with
  | some m => ⟨false, m ++ [versionModule snake key], makeRustIdentifier key.name⟩
  | none => ⟨true, key.path.map makeRustIdentifier ++ [versionModule snake key], makeRustIdentifier key.name⟩

/-- `ServiceTypeNames::for_service_type` (canadensis_codegen_rust/src/lib.rs L710-724): the names of the request and the response. -/
def RustTypeName.forServiceType (snake : String → String) (key : TypeKey) (ext : ExternalPackages) : RustTypeName × RustTypeName :=
  let base := RustTypeName.forMessageType snake key ext
  ({ base with typeName := base.typeName ++ "Request" }, { base with typeName := base.typeName ++ "Response" })

/-- What a module contains. Rust allows a type and a constant with the same name, but not two types, and not two of the others. -/
inductive ItemKind where
  | type
  | constant
  | test
deriving DecidableEq, Repr

/-- `GeneratedItem` (canadensis_codegen_rust/src/lib.rs L252-261): only the name of what is generated, and what it is. The function `test_layout` that is written out with
the type (canadensis_codegen_rust/src/lib.rs L831-871) is an item of its own here. -/
structure Item where
  kind : ItemKind
  name : RustTypeName
deriving DecidableEq, Repr

/-- The items for a generated type (canadensis_codegen_rust/src/lib.rs L766-874): the type and, if `deserialize` copies its bytes, a test. -/
def typeItems (name : RustTypeName) (M : Verif.Dsdl.Message) : List Item :=
  ⟨.type, name⟩ :: if M.zeroCopy then [⟨.test, { name with typeName := "test_layout" }⟩] else []

/-- The constant for a fixed port (canadensis_codegen_rust/src/lib.rs L109-126, L143-160). -/
def portItems (name : RustTypeName) (constant : String) : Option Nat → List Item
  | some _ => [⟨.constant, ⟨true, name.path, constant⟩⟩]
  | none => []

/-- `generate_from_dsdl` (canadensis_codegen_rust/src/lib.rs L99-189). `asEnum` is what `has_enum_directive` gives for the comments of the type (`false`: of the message
or the response; `true`: of the request). -/
def generateFromDsdl (snake : String → String) (asEnum : TypeKey → Bool → Bool) (ext : ExternalPackages) (key : TypeKey) (c : Compiled) : Outcome (List Item) :=
  match c.kind with
  | .message m =>
    let name := RustTypeName.forMessageType snake key ext
    (m.generate (fun k => asEnum k false) (asEnum key false) false).bind fun M => .ok (portItems name "SUBJECT" c.port ++ typeItems name M)
  | .service request response =>
    let names := RustTypeName.forServiceType snake key ext
    (request.generate (fun k => asEnum k false) (asEnum key true) true).bind fun M =>
      (response.generate (fun k => asEnum k false) (asEnum key false) false).bind fun M' =>
        .ok (portItems names.1 "SERVICE" c.port ++ (typeItems names.1 M ++ typeItems names.2 M'))

/-- The loop of `generate_code` (canadensis_codegen_rust/src/lib.rs L55-71): the items for all types that are not in an external package. -/
def generateItems (snake : String → String) (asEnum : TypeKey → Bool → Bool) (ext : ExternalPackages) : List (TypeKey × Compiled) → Outcome (List Item)
  | [] => .ok []
  | (key, c) :: rest =>
    match externalModule key.path ext with
    | some _ => generateItems snake asEnum ext rest
    | none => (generateFromDsdl snake asEnum ext key c).bind fun items => (generateItems snake asEnum ext rest).bind fun more => .ok (items ++ more)

/-- `ModuleTree` (canadensis_codegen_rust/src/module_tree.rs L6-12). The `BTreeMap` of the children is a list that `entry` keeps sorted. -/
inductive ModuleTree where
  | node (items : List Item) (children : List (String × ModuleTree))

/-- `ModuleTree::default` (canadensis_codegen_rust/src/module_tree.rs L6). -/
def ModuleTree.empty : ModuleTree := .node [] []

/-- Change the child with a name by `f`, `self.children.entry(submodule.clone()).or_default()` (canadensis_codegen_rust/src/module_tree.rs L22-23). -/
def ModuleTree.entry (name : String) (f : ModuleTree → ModuleTree) : List (String × ModuleTree) → List (String × ModuleTree)
  | [] => [(name, f .empty)]
  | (k, t) :: rest =>
    if name < k then (name, f .empty) :: (k, t) :: rest
    else if name = k then (k, f t) :: rest
    else (k, t) :: ModuleTree.entry name f rest

/-- `ModuleTree::add_item` (canadensis_codegen_rust/src/module_tree.rs L15-26). -/
def ModuleTree.addItem (item : Item) : List String → ModuleTree → ModuleTree
  | [], .node items children => .node (items ++ [item]) children
  | name :: rest, .node items children => .node items (ModuleTree.entry name (ModuleTree.addItem item rest) children)

/-- `FromIterator for ModuleTree` (canadensis_codegen_rust/src/module_tree.rs L29-39). -/
def ModuleTree.fromItems (items : List Item) : ModuleTree := items.foldl (fun t i => t.addItem i i.name.path) .empty

/-! ### What the names are compared with -/

/-- The items in the module with this path. -/
def ModuleTree.at : List String → ModuleTree → List Item
  | [], .node items _ => items
  | name :: rest, .node _ children =>
    match children.find? (fun c => c.1 = name) with
    | some c => c.2.at rest
    | none => []

/-- In every module the names of the modules in it are different and sorted. -/
inductive ModuleTree.Sorted : ModuleTree → Prop
  | node (items : List Item) (children : List (String × ModuleTree)) (order : children.Pairwise fun a b => a.1 < b.1)
      (each : ∀ c ∈ children, c.2.Sorted) : Sorted (.node items children)

/-- An identifier in the DSDL grammar has letters, digits, and `_`. -/
def IsIdentifier (s : String) : Prop := ∀ c ∈ s.toList, c.isAlphanum = true ∨ c = '_'

/-- How many letters and digits an identifier has. -/
def letters (s : String) : Nat := (s.toList.filter fun c => c ≠ '_').length

/-- What is assumed of the conversion into snake case: it keeps the number of letters and digits of an identifier. It changes the case of letters and inserts or removes `_`. -/
def KeepsLetters (snake : String → String) : Prop := ∀ s, IsIdentifier s → letters (snake s) = letters s

/-- Names that the generator keeps as they are. -/
def TypeKey.Plain (k : TypeKey) : Prop := IsIdentifier k.name ∧ k.name ≠ "_" ∧ ∀ p ∈ k.path, p ≠ "_"

end Verif.Front
