import Verif.Front.TypesSpec
import Verif.Docs.Model

/-!
Which comments of a section of a file are about which of its declarations.
-/

namespace Verif.Front

/-- A statement that declares a constant, a field, a variant or padding. -/
def Statement.declares (s : Statement) : Bool := s.isField || s.isConstant

/-- The name that a statement declares. -/
def Statement.name : Statement → Option String
  | .constant _ n _ => some n
  | .field _ n => some n
  | _ => none

mutual
/-- `_offset_` occurs in an expression. -/
def Expr.mentionsOffset : Expr → Bool
  | .parenthesized e => e.mentionsOffset
  | .scalarType _ => false
  | .arrayType _ _ length => length.mentionsOffset
  | .set es => Expr.mentionOffset es
  | .number _ => false
  | .string _ => false
  | .boolean _ => false
  | .identifier name => name == "_offset_"
  | .unary _ e => e.mentionsOffset
  | .binary _ l r => l.mentionsOffset || r.mentionsOffset
  | .attribute e _ => e.mentionsOffset
/-- `_offset_` occurs in one of some expressions. -/
def Expr.mentionOffset : List Expr → Bool
  | [] => false
  | e :: es => e.mentionsOffset || Expr.mentionOffset es
end

/-- `_offset_` occurs in a type. -/
def TypeAst.mentionsOffset : TypeAst → Bool
  | .scalar _ => false
  | .array _ _ e => e.mentionsOffset

/-- `_offset_` occurs in a statement. -/
def Statement.mentionsOffset : Statement → Bool
  | .directive _ (some e) => e.mentionsOffset
  | .constant _ _ e => e.mentionsOffset
  | .field t _ => t.mentionsOffset
  | _ => false

end Verif.Front

namespace Verif.Docs

open Verif.Front
open Verif.Parse (Line)

/-- Lines one below the other. -/
def joinLines : List String → String
  | [] => ""
  | [a] => a
  | a :: b :: rest => a ++ "\n" ++ joinLines (b :: rest)

/-- The statements of some lines, without the comments. -/
def statements (ls : List Line) : List Statement := Line.statements ls

/-- The declarations of some lines, in order. -/
def declarations (ls : List Line) : List Statement := (statements ls).filter Statement.declares

/-- The comments, in order, that come after declaration number `k` (from 1; 0 is the start of the section) and before the next, as far as `keep` says so of the
statements before the comment. -/
def about (keep : List Statement → Bool) (ls : List Line) (k : Nat) : List String :=
  (List.range ls.length).filterMap fun (i : Nat) =>
    match (ls[i]? : Option Line) with
    | some (.comment c) => if (declarations (ls.take i)).length = k ∧ keep (statements (ls.take i)) = true then some c else none
    | _ => none

/-- These comments one below the other, without empty ones at the start. -/
def doc (keep : List Statement → Bool) (ls : List Line) (k : Nat) : String := joinLines ((about keep ls k).dropWhile fun c => decide (c = ""))

/-- The comments `d` of a section are those that `keep` keeps of the lines `ls`: each is about the constant, field or variant that is declared last before it, or
about the type if there is none. -/
structure Documented (keep : List Statement → Bool) (ls : List Line) (d : SectionDocs) : Prop where
  type : d.comments = doc keep ls 0
  constants : d.constants.map (fun i => (i.name, i.comments)) =
    (((declarations ls).zipIdx 1).filter fun e => e.1.isConstant).map fun e => (e.1.name, doc keep ls e.2)
  members : d.members.map (fun i => (i.name, i.comments)) =
    (((declarations ls).zipIdx 1).filter fun e => e.1.isField).map fun e => (e.1.name, doc keep ls e.2)

/-- Whether `_offset_` was used after `@union`. -/
def usedOffset (ss : List Statement) : Bool := (ss.dropWhile fun s => !s.isUnion).any Statement.mentionsOffset

/-- Which comments the compiler keeps, by the statements of the section before the comment: of a struct those before `@sealed` or `@extent`; of a union those after the
first declaration, in a response up to `@sealed` or `@extent`, otherwise up to a use of `_offset_` and then again after `@sealed` or `@extent`. -/
def kept (response : Bool) (ss : List Statement) : Bool :=
  if ss.any Statement.isUnion then ss.any Statement.declares && (if response then !ss.any Statement.isEnd else ss.any Statement.isEnd || !usedOffset ss)
  else !ss.any Statement.isEnd

/-- All comments. -/
def all (_ : List Statement) : Bool := true

/-- A section whose comments come before `@sealed` or `@extent` and, if it has `@union`, after a declaration and before a use of `_offset_`. -/
def Ordinary (ls : List Line) : Prop :=
  ∀ a c b, ls = a ++ .comment c :: b → (statements a).any Statement.isEnd = false ∧
    ((statements a).any Statement.isUnion = true → (statements a).any Statement.declares = true ∧ usedOffset (statements a) = false)

/-- `R` holds of the sections of a file: of all lines for a message, of the lines before and after `---` for a service. -/
def Sections (R : Bool → List Line → SectionDocs → CMessage → Prop) (lines : List Line) (c : Compiled) (d : FileDocs) : Prop :=
  match c.kind with
  | .message m => d.request = none ∧ R false lines d.current m
  | .service request response => ∃ a b d₀, lines = a ++ .statement .responseMarker :: b ∧ d.request = some d₀ ∧ R false a d₀ request ∧ R true b d.current response

/-- The constants, fields and variants that have comments are those of the message. -/
def NamesOf (d : SectionDocs) (m : CMessage) : Prop :=
  d.constants.map Item.name = m.constants.map (fun c => some c.1) ∧
  d.members.map Item.name = m.members.map fun
    | .data n _ _ => some n
    | .padding _ => none

/-- A comment that starts with the directive, before any declaration and before `@union`, `@sealed` and `@extent`. -/
def EnumRequested (ls : List Line) : Prop :=
  ∃ a c b, ls = a ++ .comment c :: b ∧ (∀ s ∈ statements a, s.declares = false ∧ s.isUnion = false ∧ s.isEnd = false) ∧ "[canadensis(enum)]".toList <+: c.toList

end Verif.Docs
