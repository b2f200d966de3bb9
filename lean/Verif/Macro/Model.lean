import Verif.Pkg.Props
import Verif.Front.NamesProps
import Verif.Front.Heck

/-!
Model of `canadensis_macro`: the macro `types_from_dsdl!`, from its tokens to the modules that are generated. An error stands for `compile_error!`; what the message says and where it
points to is left out. The program of `canadensis_codegen_rust` (main.rs), which does the same for directories, is in `Program.lean`.
-/

namespace Verif.Macro

open Verif.Front (TypeKey Externals Compiled Outcome ExternalPackages Item ModuleTree generateItems)
open Verif.Pkg (Package OsStr Entry)

/-! ### Tokens -/

/-- `Delimiter` of proc_macro2 (used in canadensis_macro/src/input.rs L5). -/
inductive Delimiter where
  | parenthesis
  | brace
  | bracket
  | none
deriving DecidableEq, Repr

/-- `TokenTree` of proc_macro2 (used in canadensis_macro/src/input.rs L5, lib.rs L10). `str` is a literal that `Lit::new` of syn reads as a string, with its value; `literal` is any
other. Spans and the spacing of `Punct` are left out. -/
inductive Token where
  | ident (name : String)
  | punct (c : Char)
  | str (value : String)
  | literal (text : String)
  | group (delimiter : Delimiter) (stream : List Token)

/-! ### Statements -/

/-- `Statement` (canadensis_macro/src/input.rs L9-18). -/
inductive Statement where
  | function (name : String) (arguments : List Token)
  | inlineType (name dsdl : String)

/-- `ParsedString::from_literal` (canadensis_macro/src/input.rs L148-161), also for tokens that are not literals, as its callers do. -/
def stringFromToken : Token → Outcome String
  | .str value => .ok value
  | _ => .error

/-- `parse_string_in_group` (canadensis_macro/src/input.rs L121-138). -/
def parseStringInGroup : List Token → Outcome String
  | [] => .error
  | [tree] => stringFromToken tree
  | _ => .error

/-- `parse_function` (canadensis_macro/src/input.rs L85-101). -/
def parseFunction : List Token → List Token → Outcome Statement
  | [.ident name], stream => .ok (.function name stream)
  | _ :: _, _ => .error
  | [], _ => .panic

/-- `parse_inline_type` (canadensis_macro/src/input.rs L102-119). -/
def parseInlineType : List Token → List Token → Outcome Statement
  | [], _ => .panic
  | [.ident word, .str name], stream => if word = "type" then (parseStringInGroup stream).bind fun dsdl => .ok (.inlineType name dsdl) else .error
  | _, _ => .error

/-- `parse_statement` (canadensis_macro/src/input.rs L71-83). -/
def parseStatement (before : List Token) (delimiter : Delimiter) (stream : List Token) : Outcome Statement :=
  match delimiter with
  | .parenthesis => parseFunction before stream
  | .brace => parseInlineType before stream
  | .bracket => .error
  | .none => .error

/-- `Input::parse` (canadensis_macro/src/input.rs L29-68). The first argument is `trees_before_group`, empty between statements. -/
def parseInput : List Token → List Token → Outcome (List Statement)
  | [], [] => .ok []
  | [], .ident name :: rest => parseInput [.ident name] rest
  | [], _ :: _ => .error
  | _ :: _, [] => .error
  | b :: before, .group delimiter stream :: rest =>
    (parseStatement (b :: before) delimiter stream).bind fun s => (parseInput [] rest).bind fun ss => .ok (s :: ss)
  | b :: before, t :: rest => parseInput (b :: before ++ [t]) rest

/-! ### Effects of statements -/

/-- What the macro depends on besides its tokens: the characters that are digits (see `Verif.Pkg`), the environment variable CARGO_MANIFEST_DIR, the directory at a path (its components
and what `walkdir` finds in it), the contents of files, the operations of the compiler that are not modelled, and which types have the comment `#[canadensis(enum)]`
(canadensis_macro/src/lib.rs L71-96, L249-260). -/
structure World where
  nd : Char → Bool
  manifestDir : Option String
  directory : String → Option (List OsStr × List (Option Entry))
  disk : List OsStr → Option String
  x : Externals
  asEnum : TypeKey → Bool → Bool

/-- `eval_env_variable` (canadensis_macro/src/lib.rs L249-260). -/
def evalEnvVariable (w : World) (name : String) : Outcome String :=
  if name = "CARGO_MANIFEST_DIR" then
    match w.manifestDir with
    | some value => .ok value
    | none => .error
  else .error

/-- `eval_path_arguments` (canadensis_macro/src/lib.rs L198-247). The first argument says that a comma or the end has to follow. -/
def evalPathArguments (w : World) : Bool → String → List Token → Outcome String
  | _, path, [] => .ok path
  | false, path, .punct c :: .ident name :: rest => if c = '$' then (evalEnvVariable w name).bind fun value => evalPathArguments w true (path ++ value) rest else .error
  | false, path, .str value :: rest => evalPathArguments w true (path ++ value) rest
  | false, _, _ => .error
  | true, path, .punct c :: rest => if c = ',' then evalPathArguments w false path rest else .error
  | true, _, _ => .error

/-- What `Package` returns, as an error of the macro. -/
def ofReturned : Pkg.Returned × Package → Outcome Package
  | (.ok, p) => .ok p
  | (.err _, _) => .error
  | (.panic, _) => .panic

/-- `Package::add_files` (canadensis_dsdl_frontend/src/package.rs L52-68), where the path is text. -/
def addDirectory (w : World) (p : Package) (path : String) : Outcome Package :=
  match w.directory path with
  | some (root, listing) => ofReturned (Package.addFiles w.nd root listing p)
  | none => .error

/-- `eval_package_function` (canadensis_macro/src/lib.rs L87-96). -/
def evalPackageFunction (w : World) (p : Package) (arguments : List Token) : Outcome Package :=
  (evalPathArguments w false "" arguments).bind fun path => addDirectory w p path

/-- The first loop of `eval_make_external_function` (canadensis_macro/src/lib.rs L108-135): the package, and the tokens after the comma. -/
def cyphalPackage : List String → List Token → Outcome (List String × List Token)
  | names, [] => .ok (names, [])
  | names, .ident name :: .punct c :: rest =>
    if c = '.' then cyphalPackage (names ++ [name]) rest
    else if c = ',' then .ok (names ++ [name], rest)
    else .error
  | _, _ => .error

/-- The second loop of `eval_make_external_function` (canadensis_macro/src/lib.rs L143-177): the Rust module. -/
def rustModule : List String → List Token → Outcome (List String)
  | names, [] => .ok names
  | names, [.ident name] => .ok (names ++ [name])
  | names, .ident name :: .punct c :: .punct d :: rest => if c = ':' ∧ d = ':' then rustModule (names ++ [name]) rest else .error
  | _, _ => .error

/-- `eval_make_external_function` (canadensis_macro/src/lib.rs L98-196). -/
def evalMakeExternalFunction (ext : ExternalPackages) (arguments : List Token) : Outcome ExternalPackages :=
  (cyphalPackage [] arguments).bind fun r =>
    if r.1 = [] then .error
    else
      (rustModule [] r.2).bind fun m =>
        if m = [] then .error
        else
          match ext.lookup r.1 with
          | none => .ok (ext ++ [(r.1, m)])
          | some _ => .error

/-- `eval_inline_type` (canadensis_macro/src/lib.rs L262-275). -/
def evalInlineType (w : World) (p : Package) (name dsdl : String) : Outcome Package :=
  match Pkg.keyFromStr w.nd name with
  | none => .error
  | some key => ofReturned (p.addString w.nd none key dsdl)

/-- `eval_generate_function` (canadensis_macro/src/lib.rs L71-85). Simplified: the modules and the items in them; that their text is Rust tokens (L81-83) is assumed. -/
def evalGenerateFunction (w : World) (p : Package) (ext : ExternalPackages) : Outcome ModuleTree :=
  (p.compile w.x w.disk).bind fun types => (generateItems Front.Heck.snake w.asEnum ext types).bind fun items => .ok (ModuleTree.fromItems items)

/-- The loop and what follows it in `types_from_dsdl_inner` (canadensis_macro/src/lib.rs L35-68); `none` is no code. -/
def runStatements (w : World) : Package → ExternalPackages → List Statement → Outcome (Option ModuleTree)
  | _, _, [] => .ok none
  | p, ext, .function name arguments :: rest =>
    if name = "package" then (evalPackageFunction w p arguments).bind fun p => runStatements w p ext rest
    else if name = "make_external" then (evalMakeExternalFunction ext arguments).bind fun ext => runStatements w p ext rest
    else if name = "generate" then
      (evalGenerateFunction w p ext).bind fun tree =>
        match rest with
        | [] => .ok (some tree)
        | _ :: _ => .error
    else .error
  | p, ext, .inlineType name dsdl :: rest => (evalInlineType w p name dsdl).bind fun p => runStatements w p ext rest

/-- `types_from_dsdl_inner` (canadensis_macro/src/lib.rs L25-69). -/
def typesFromDsdl (w : World) (input : List Token) : Outcome (Option ModuleTree) :=
  (parseInput [] input).bind fun statements => runStatements w [] [] statements

end Verif.Macro
