import Verif.Front.Generate
import Verif.Parse.Ast

/-!
Model of the documentation comments of compiled types (`canadensis_dsdl_frontend`: `compile.rs`, `compiled.rs`, `types/constant.rs`) and of what the code
generator reads from them (`canadensis_codegen_rust`: `struct_as_enum.rs`, `lib.rs`).

The comments are kept beside the state of `Verif.Front.Compile`, not inside its constants, fields and variants: entry `i` of `constants` or `members` belongs to
the constant, field or variant `i` of the state. An `end_offset` is the number of the statement in the file, not its byte: statements follow each other in a
file, so that the numbers are in the same order as the bytes.
-/

namespace Verif.Docs

open Verif.Front
open Verif.Parse (Line)

/-- `append_comment`, the same for a constant, a field, a variant and the type (canadensis_dsdl_frontend/src/compiled.rs L127-134, L221-228; types/constant.rs L79-86;
compile.rs L666-672). -/
def appendComment (comments comment : String) : String := if comments = "" then comment else comments ++ "\n" ++ comment

/-- The `name`, `comments` and `end_offset` of a `Constant`, a `Field` or a `Variant` (canadensis_dsdl_frontend/src/compiled.rs L106-115, L188-197, types/constant.rs
L25-28). -/
structure Item where
  name : Option String
  comments : String
  endOffset : Nat
deriving DecidableEq, Repr

/-- The comments of one section: of its type, its constants and its fields or variants (canadensis_dsdl_frontend/src/compile.rs L422-437). -/
structure SectionDocs where
  comments : String
  constants : List Item
  members : List Item
deriving DecidableEq, Repr

/-- The comments of a new section (canadensis_dsdl_frontend/src/compile.rs L439-457, L470, L489). -/
def SectionDocs.empty : SectionDocs := ⟨"", [], []⟩

/-- `last_mut` and `append_comment` (canadensis_dsdl_frontend/src/constants.rs L42-44; std). -/
def appendLast (comment : String) : List Item → List Item
  | [] => []
  | [i] => [{ i with comments := appendComment i.comments comment }]
  | i :: is => i :: appendLast comment is

/-- `apply_comment_to_constant_or_field` and `apply_comment_to_constant_or_variant` (canadensis_dsdl_frontend/src/compile.rs L803-840). -/
def SectionDocs.applyToLater (comment : String) (d : SectionDocs) : SectionDocs :=
  match d.constants.getLast?, d.members.getLast? with
  | none, none => d
  | some _, none => { d with constants := appendLast comment d.constants }
  | none, some _ => { d with members := appendLast comment d.members }
  | some k, some m =>
    if k.endOffset > m.endOffset then { d with constants := appendLast comment d.constants } else { d with members := appendLast comment d.members }

/-- `handle_comment` in the states `Message` and `Response` (canadensis_dsdl_frontend/src/compile.rs L662-673, L684-695). -/
def SectionDocs.applyToType (comment : String) (d : SectionDocs) : SectionDocs :=
  match d.constants.getLast? with
  | some _ => { d with constants := appendLast comment d.constants }
  | none => { d with comments := appendComment d.comments comment }

/-- `handle_comment` (canadensis_dsdl_frontend/src/compile.rs L655-707). -/
def SectionDocs.handleComment (s : State) (comment : String) (d : SectionDocs) : SectionDocs :=
  match s with
  | .message => d.applyToType comment
  | .messageStruct (.collecting _) _ => d.applyToLater comment
  | .messageUnion (.collecting _) => d.applyToLater comment
  | .messageUnion (.ended _ _ _) => d.applyToLater comment
  | .response _ => d.applyToType comment
  | .responseStruct _ (.collecting _) _ => d.applyToLater comment
  | .responseUnion _ (.collecting _) => d.applyToLater comment
  | .responseUnion _ (.usedOffset _ _) => d.applyToLater comment
  | _ => d

/-- The comments of a file: those of the request, if its section is complete, and those of the current section (canadensis_dsdl_frontend/src/compile.rs L422-437,
L843-857). -/
structure FileDocs where
  request : Option SectionDocs
  current : SectionDocs
deriving DecidableEq, Repr

/-- What a statement that was compiled does to the comments: it adds a constant (canadensis_dsdl_frontend/src/types/constant.rs L52-58; compile.rs L292-300), a field or
a variant (compile.rs L512-653; compiled.rs L143-170, L201-208) without comments, or ends the section of the request (compile.rs L459-500, L798-800). -/
def FileDocs.statement (offset : Nat) (s : Statement) (d : FileDocs) : FileDocs :=
  match s with
  | .directive _ _ => d
  | .constant _ name _ => { d with current := { d.current with constants := d.current.constants ++ [⟨some name, "", offset⟩] } }
  | .field _ name => { d with current := { d.current with members := d.current.members ++ [⟨some name, "", offset⟩] } }
  | .padding _ => { d with current := { d.current with members := d.current.members ++ [⟨none, "", offset⟩] } }
  | .responseMarker => ⟨some d.current, .empty⟩

/-- The loop in `compile_one_inner` with the comments (canadensis_dsdl_frontend/src/compile.rs L287-339). `offset` is the number of the next line. -/
def runLines {P : Type} (x : Externals) (lookup : Lookup P) : Nat → List Line → Cx P → FileDocs → Outcome (Cx P × FileDocs)
  | _, [], cx, d => .ok (cx, d)
  | offset, .statement s :: rest, cx, d => (s.run x lookup cx).bind fun cx => runLines x lookup (offset + 1) rest cx (d.statement offset s)
  | offset, .comment c :: rest, cx, d => runLines x lookup (offset + 1) rest cx { d with current := d.current.handleComment cx.file.state c }

/-- `compile_one_inner` of a parsed file with its comments (canadensis_dsdl_frontend/src/compile.rs L280-345, L712-794). -/
def compileLines {P : Type} (x : Externals) (lookup : Lookup P) (key : TypeKey) (port : Option Nat) (lines : List Line) (p : P) :
    Outcome (Compiled × FileDocs × P) :=
  (runLines x lookup 0 lines ⟨.new key.path, p⟩ ⟨none, .empty⟩).bind fun r => (r.1.file.finish port).bind fun c => .ok (c, r.2, r.1.persistent)

/-- The lines of a text (regex: `^` with `multi_line` is the start of the text and what follows a line feed; canadensis_codegen_rust/src/struct_as_enum.rs L32-33). -/
def textLines (cs : List Char) : List (List Char) := cs.splitOn '\n'

/-- The directive as it is looked for (canadensis_codegen_rust/src/struct_as_enum.rs L32). -/
def enumDirective : List Char := "[canadensis(enum)]".toList

/-- `has_enum_directive` (canadensis_codegen_rust/src/struct_as_enum.rs L30-37). -/
def hasEnumDirective (comments : String) : Bool := (textLines comments.toList).any fun l => enumDirective.isPrefixOf l

/-- `generate_rust_type` with the comments of the type (canadensis_codegen_rust/src/lib.rs L127-137, L191-252). -/
def generateWith (en : TypeKey → Bool) (request : Bool) (m : CMessage) (d : SectionDocs) : Outcome Verif.Dsdl.Message := m.generate en (hasEnumDirective d.comments) request

end Verif.Docs
