import Verif.Front.Compile

/-!
What compiling a set of files means: every file is compiled on its own, with the names of other types standing for types that are already known.
-/

namespace Verif.Front

/-- Types that are already known: a name stands for the type with exactly this name. Looking one up changes nothing. -/
def table : Lookup (List (TypeKey × Compiled)) := fun key known =>
  match known.find? fun e => e.1 = key with
  | some e => .ok (e.2, known)
  | none => .error

/-- The file of the type `key` compiles to `c` on its own, where names stand for the types in `known`. -/
def Compiles (x : Externals) (known : List (TypeKey × Compiled)) (key : TypeKey) (file : File) (c : Compiled) : Prop :=
  compileFile x table key file known = .ok (c, known)

/-- Two names that differ at most in the case of letters. -/
def SameName (a b : TypeKey) : Prop := a.folded = b.folded

/-- The names of the files are different, and not only in the case of letters. -/
def DifferentNames {α : Type} (files : List (TypeKey × α)) : Prop := files.Pairwise fun a b => ¬ SameName a.1 b.1

/-- Each of the types is what its file compiles to when names stand for the types before it. -/
def InOrder (x : Externals) (files : List (TypeKey × File)) (types : List (TypeKey × Compiled)) : Prop :=
  ∀ before key c after, types = before ++ (key, c) :: after → ∃ name file, (name, file) ∈ files ∧ SameName name key ∧ Compiles x before key file c

end Verif.Front
