import Verif.Front.Compile
import Verif.Front.Heck

/-! # Warnings about names in DSDL files -/

namespace Verif.Front

/-- `WarningKind` (canadensis_dsdl_frontend/src/warning.rs L26-59). -/
inductive Warning where
  | packageCase (name suggestion : String)
  | fieldCase (key : TypeKey) (name suggestion : String)
  | constantCase (key : TypeKey) (name suggestion : String)
  | typeNameCase (key : TypeKey) (suggestion : String)
deriving DecidableEq, Repr

/-- Whether `BTreeSet` takes two warnings for the same one: the derived `Ord for WarningKind` (canadensis_dsdl_frontend/src/warning.rs L25) compares types by `Ord for TypeKey`
(canadensis_dsdl_frontend/src/type_key.rs L28-53), without regard to case. -/
def Warning.same : Warning → Warning → Bool
  | .packageCase n s, .packageCase n' s' => n == n' && s == s'
  | .fieldCase k n s, .fieldCase k' n' s' => k.eq k' && n == n' && s == s'
  | .constantCase k n s, .constantCase k' n' s' => k.eq k' && n == n' && s == s'
  | .typeNameCase k s, .typeNameCase k' s' => k.eq k' && s == s'
  | _, _ => false

/-- `Warnings` (canadensis_dsdl_frontend/src/warning.rs L107-110). Simplified: in the order of insertion; the `BTreeSet` is in the order of the warnings. -/
abbrev Warnings := List Warning

/-- `Warnings::insert` (canadensis_dsdl_frontend/src/warning.rs L127-129). -/
def Warnings.insert (ws : Warnings) (w : Warning) : Warnings := if ws.any w.same then ws else ws ++ [w]

/-- `is_permissive_snake_case` (canadensis_dsdl_frontend/src/warning.rs L213-217). -/
def isPermissiveSnakeCase (s : String) : Bool := s.toList.all fun c => c.isLower || c.isDigit || c == '_'

/-- `[a-zA-Z0-9]*_?$` of the pattern in `is_permissive_upper_camel_case` (canadensis_dsdl_frontend/src/warning.rs L221). -/
def camelTail : List Char → Bool
  | [] => true
  | [c] => c.isAlphanum || c == '_'
  | c :: cs => c.isAlphanum && camelTail cs

/-- `is_permissive_upper_camel_case` (canadensis_dsdl_frontend/src/warning.rs L219-223): the pattern `^_?[a-zA-Z0-9]*_?$`. -/
def isPermissiveUpperCamelCase (s : String) : Bool :=
  match s.toList with
  | '_' :: cs => camelTail cs
  | cs => camelTail cs

/-- The loop over the parts of the package in `Warnings::check_pre_compile` (canadensis_dsdl_frontend/src/warning.rs L134-142). -/
def Warnings.checkPackage (ws : Warnings) : List String → Warnings
  | [] => ws
  | part :: rest => Warnings.checkPackage (if isPermissiveSnakeCase part then ws else ws.insert (.packageCase part (Heck.snake part))) rest

/-- `Warnings::check_pre_compile` (canadensis_dsdl_frontend/src/warning.rs L132-152). -/
def Warnings.checkPreCompile (ws : Warnings) (key : TypeKey) : Warnings :=
  let ws := ws.checkPackage key.path
  if isPermissiveUpperCamelCase key.name then ws else ws.insert (.typeNameCase key (Heck.upperCamel key.name))

/-- `Warnings::check_field_name` (canadensis_dsdl_frontend/src/warning.rs L194-206). -/
def Warnings.checkFieldName (ws : Warnings) (key : TypeKey) (name : String) : Warnings :=
  if isPermissiveSnakeCase name then ws else ws.insert (.fieldCase key name (Heck.snake name))

/-- The loop over the fields of a struct in `Warnings::check_message` (canadensis_dsdl_frontend/src/warning.rs L168-174). -/
def Warnings.checkFields (ws : Warnings) (key : TypeKey) : List CField → Warnings
  | [] => ws
  | f :: rest =>
    match f.name with
    | some name => Warnings.checkFields (ws.checkFieldName key name) key rest
    | none => Warnings.checkFields ws key rest

/-- The loop over the variants of a union in `Warnings::check_message` (canadensis_dsdl_frontend/src/warning.rs L175-179). -/
def Warnings.checkVariants (ws : Warnings) (key : TypeKey) : List CVariant → Warnings
  | [] => ws
  | v :: rest => Warnings.checkVariants (ws.checkFieldName key v.name) key rest

/-- The loop over the constants in `Warnings::check_message` (canadensis_dsdl_frontend/src/warning.rs L181-191). -/
def Warnings.checkConstants (ws : Warnings) (key : TypeKey) : Constants → Warnings
  | [] => ws
  | (name, _) :: rest =>
    let suggestion := Heck.shouty name
    Warnings.checkConstants (if name ≠ suggestion then ws.insert (.constantCase key name suggestion) else ws) key rest

/-- `Warnings::check_message` (canadensis_dsdl_frontend/src/warning.rs L165-192). -/
def Warnings.checkMessage (ws : Warnings) (key : TypeKey) : CMessage → Warnings
  | .struct _ _ fields _ constants => (ws.checkFields key fields).checkConstants key constants
  | .union _ _ _ variants _ constants => (ws.checkVariants key variants).checkConstants key constants

/-- `Warnings::check_post_compile` (canadensis_dsdl_frontend/src/warning.rs L155-163). -/
def Warnings.checkPostCompile (ws : Warnings) (key : TypeKey) (c : Compiled) : Warnings :=
  match c.kind with
  | .message m => ws.checkMessage key m
  | .service request response => (ws.checkMessage key request).checkMessage key response

/-- `PersistentContext` (canadensis_dsdl_frontend/src/compile.rs L231-238). -/
structure Warned where
  base : Persistent
  warnings : Warnings

/-- `compile_one`, `compile_one_inner` (canadensis_dsdl_frontend/src/compile.rs L263-345). The warnings up to an error are left out. -/
def compileOneWarned (x : Externals) (lookup : Lookup Warned) (key : TypeKey) (file : File) (p : Warned) : Outcome (Compiled × Warned) :=
  (compileFile x lookup key file { p with warnings := p.warnings.checkPreCompile key }).bind fun r =>
    .ok (r.1, { r.2 with warnings := r.2.warnings.checkPostCompile key r.1 })

/-- `PersistentContext::type_by_key` (canadensis_dsdl_frontend/src/compile.rs L351-374), with the warnings; `fuel` as in `Persistent.typeByKey`. -/
def Warned.typeByKey (x : Externals) : Nat → Lookup Warned
  | fuel, key, p =>
    match getCaseSensitive p.base.done key with
    | some c => .ok (c, p)
    | none =>
      match fuel with
      | 0 => .error
      | fuel + 1 =>
        match removeKey p.base.pending key with
        | some (file, pending) =>
          (compileOneWarned x (Warned.typeByKey x fuel) key file { p with base := { p.base with pending := pending } }).bind fun r =>
            (insertDone r.2.base key r.1).bind fun b => .ok (r.1, { r.2 with base := b })
        | none => .error

/-- The loop of `PersistentContext::compile` (canadensis_dsdl_frontend/src/compile.rs L241-261), with the warnings. -/
def Warned.compileAll (x : Externals) : Nat → Warned → Outcome Warned
  | rounds, p =>
    match p.base.pending with
    | [] => .ok p
    | (key, file) :: pending =>
      match rounds with
      | 0 => .error
      | rounds + 1 =>
        (compileOneWarned x (Warned.typeByKey x pending.length) key file { p with base := { p.base with pending := pending } }).bind fun r =>
          (insertDone r.2.base key r.1).bind fun b => Warned.compileAll x rounds { r.2 with base := b }

/-- `Package::compile_with_warnings` (canadensis_dsdl_frontend/src/package.rs L177-189), `compile` (canadensis_dsdl_frontend/src/compile.rs L35-42). The warnings up to an error
are left out. -/
def compileWithWarnings (x : Externals) (files : List (TypeKey × File)) : Outcome (List (TypeKey × Compiled) × Warnings) :=
  (Warned.compileAll x files.length ⟨⟨files, []⟩, []⟩).bind fun p => .ok (p.base.done, p.warnings)

/-! ### What the warnings are compared with -/

/-- snake_case, as far as it is asked for: no character but lowercase letters, digits and `_`. -/
def SnakeName (s : String) : Prop := ∀ c ∈ s.toList, c.isLower = true ∨ c.isDigit = true ∨ c = '_'

/-- SHOUTING_SNAKE_CASE: words of uppercase letters and digits, with single `_` between them. -/
def ShoutyName (s : String) : Prop :=
  ∃ words : List (List Char), (∀ w ∈ words, w ≠ [] ∧ ∀ c ∈ w, c.isUpper = true ∨ c.isDigit = true) ∧ s.toList = (words.intersperse ['_']).flatten

/-- CamelCase, as far as it is asked for: only letters and digits, except that the first and the last character may be `_`. -/
def CamelName (s : String) : Prop :=
  ∃ first middle last, s.toList = first ++ middle ++ last ∧ (first = [] ∨ first = ['_']) ∧ (last = [] ∨ last = ['_']) ∧ ∀ c ∈ middle, c.isAlphanum = true

/-- Names of the fields or variants of the request, the response, or the message of a file. -/
def Compiled.HasField (c : Compiled) (name : String) : Prop :=
  ∃ m, (c.kind = .message m ∨ (∃ r, c.kind = .service m r) ∨ ∃ r, c.kind = .service r m) ∧
    ((∃ d e fields l cs, m = .struct d e fields l cs ∧ ∃ s a al, CField.data name s a al ∈ fields) ∨
      ∃ d e n variants l cs, m = .union d e n variants l cs ∧ ∃ s a, CVariant.mk name s a ∈ variants)

/-- Names of the constants of the request, the response, or the message of a file. -/
def Compiled.HasConstant (c : Compiled) (name : String) : Prop :=
  ∃ m, (c.kind = .message m ∨ (∃ r, c.kind = .service m r) ∨ ∃ r, c.kind = .service r m) ∧ ∃ k, (name, k) ∈ m.constants

/-- The warnings that are due for these types: one for each package, type, field, variant, or constant with an unusual name. -/
inductive Due (types : List (TypeKey × Compiled)) : Warning → Prop
  | package {key c part} (mem : (key, c) ∈ types) (has : part ∈ key.path) (unusual : ¬SnakeName part) : Due types (.packageCase part (Heck.snake part))
  | typeName {key c} (mem : (key, c) ∈ types) (unusual : ¬CamelName key.name) : Due types (.typeNameCase key (Heck.upperCamel key.name))
  | field {key c name} (mem : (key, c) ∈ types) (has : c.HasField name) (unusual : ¬SnakeName name) : Due types (.fieldCase key name (Heck.snake name))
  | constant {key c name} (mem : (key, c) ∈ types) (has : c.HasConstant name) (unusual : ¬ShoutyName name) : Due types (.constantCase key name (Heck.shouty name))

/-- The letters and digits of a name, without regard to case. -/
def plainLetters (s : String) : List Char := (s.toList.filter Char.isAlphanum).map Char.toLower

end Verif.Front
