import Verif.Pkg.Package
import Verif.Front.SolveSpec

/-!
Specification: how the types of a package are named, and how the names are written in texts and as files. After chapter 3 of the Cyphal specification and the documentation of
`Package`; it knows nothing of patterns.
-/

namespace Verif.Pkg

open Verif.Front (TypeKey SameName DifferentNames)

/-! ### Text -/

/-- A number in decimal digits, perhaps with zeros in front. -/
def Number (t : List Char) (n : Nat) : Prop := t ≠ [] ∧ (∀ c ∈ t, c.isDigit = true) ∧ Nat.ofDigitChars 10 t 0 = n

/-- Texts with dots between them. -/
def dotted : List (List Char) → List Char
  | [] => []
  | [a] => a
  | a :: b :: rest => a ++ '.' :: dotted (b :: rest)

/-- A part of a text with dots: there is something, and no dot. -/
def Part (t : List Char) : Prop := t ≠ [] ∧ '.' ∉ t

/-! ### Names -/

/-- A name begins with a letter or `_` and goes on with letters, digits and `_`. Letters and digits are those of ASCII. -/
def IsName : List Char → Prop
  | [] => False
  | c :: rest => (c.isAlpha = true ∨ c = '_') ∧ ∀ d ∈ rest, d.isAlpha = true ∨ d.isDigit = true ∨ d = '_'

/-- The reserved words that stand in a list. -/
def reservedWords : List String :=
  ["truncated", "saturated", "true", "false", "bool", "optional", "aligned", "const", "struct", "super", "template", "enum", "self", "and", "or", "not", "auto", "type",
    "con", "prn", "aux", "nul"]

/-- Reserved words, whatever the case of the letters: those in the list; `int`, `uint`, `float`, `void` and anything that looks like one with a number of bits;
`com` and `lpt` with a digit; fixed-point types such as `q7_8`; and everything between two `_`. -/
inductive ReservedWord (t : List Char) : Prop
  | listed (w : String) (_ : w ∈ reservedWords) (_ : t.map Char.toLower = w.toList)
  | sized (w : String) (digits : List Char) (_ : w ∈ ["int", "uint", "float", "void"]) (_ : ∀ c ∈ digits, c.isDigit = true) (_ : t.map Char.toLower = w.toList ++ digits)
  | device (w : String) (digit : Char) (_ : w ∈ ["com", "lpt"]) (_ : digit.isDigit = true) (_ : t.map Char.toLower = w.toList ++ [digit])
  | fixedPoint (w : String) (a b : List Char) (_ : w ∈ ["q", "uq"]) (_ : a ≠ [] ∧ ∀ c ∈ a, c.isDigit = true) (_ : b ≠ [] ∧ ∀ c ∈ b, c.isDigit = true)
      (_ : t.map Char.toLower = w.toList ++ a ++ '_' :: b)
  | underscores (inside : List Char) (_ : t = '_' :: inside ++ ['_'])

/-- The names that a type may have: it is in a namespace, its names are names and not reserved, they have at most 255 characters together, and the version is not 0.0. -/
structure ValidKey (k : TypeKey) : Prop where
  inNamespace : k.path ≠ []
  names : ∀ s ∈ k.path ++ [k.name], IsName s.toList ∧ ¬ ReservedWord s.toList
  short : (dotted ((k.path ++ [k.name]).map String.toList)).length ≤ 255
  version : ¬ (k.major = 0 ∧ k.minor = 0)

/-- A text stands for the name of a type: the namespaces, the name, and the version, with dots between them. -/
def KeyText (k : TypeKey) (t : List Char) : Prop :=
  ∃ a b, t = dotted ((k.path ++ [k.name]).map String.toList ++ [a, b]) ∧ k.path ≠ [] ∧ (∀ s ∈ k.path ++ [k.name], Part s.toList) ∧
    Number a k.major ∧ k.major < 256 ∧ Number b k.minor ∧ k.minor < 256

/-- What an error says about the name that was refused, for the errors that are about the name alone. -/
def ErrorAbout (k : TypeKey) : AddError → Prop
  | .notInNamespace => k.path = []
  | .nameLength => 255 < (String.ofList (dotted ((k.path ++ [k.name]).map String.toList))).utf8ByteSize
  | .invalidIdentifier s => s ∈ k.path ++ [k.name] ∧ ¬ IsName s.toList
  | .keyword s => s ∈ k.path ++ [k.name] ∧ ReservedWord s.toList
  | .versionZero => k.major = 0 ∧ k.minor = 0
  | _ => False

/-! ### Files -/

/-- The name of a file stands for a port, a name and a version: `Name.1.0.dsdl` or `123.Name.1.0.dsdl`, or with `uavcan` at the end. -/
inductive FileNameText : FileInfo → List Char → Prop
  | noPort {name a b ext : List Char} {major minor : Nat} : Part name → Number a major → major < 256 → Number b minor → minor < 256 →
      (ext = "dsdl".toList ∨ ext = "uavcan".toList) → FileNameText ⟨none, String.ofList name, major, minor⟩ (dotted [name, a, b, ext])
  | port {p name a b ext : List Char} {n major minor : Nat} : Number p n → n < 2 ^ 32 → Part name → Number a major → major < 256 → Number b minor → minor < 256 →
      (ext = "dsdl".toList ∨ ext = "uavcan".toList) → FileNameText ⟨some n, String.ofList name, major, minor⟩ (dotted [p, name, a, b, ext])

/-- A file in a directory `root` defines a type: the directories below `root` are its namespaces, and the name of the file says the rest. -/
def Defines (root path : List OsStr) (key : TypeKey) (port : Option Nat) : Prop :=
  ∃ (directories : List String) (fileName : String) (info : FileInfo), path = root ++ directories.map OsStr.text ++ [.text fileName] ∧
    FileNameText info fileName.toList ∧ key = ⟨directories, info.name, info.major, info.minor⟩ ∧ port = info.port

/-- A file that counts as DSDL: `dsdl` or `uavcan` after the last dot of its name, and something before this dot. -/
def DsdlFileName (name : OsStr) : Prop :=
  (∃ s before ext, name = .text s ∧ before ≠ [] ∧ (ext = "dsdl".toList ∨ ext = "uavcan".toList) ∧ s.toList = before ++ '.' :: ext) ∨
  (∃ bs before ext, name = .bytes bs ∧ before ≠ [] ∧ (ext = "dsdl".toList ∨ ext = "uavcan".toList) ∧ bs = before ++ '.'.toUInt8 :: ext.map Char.toUInt8)

/-- What the error of adding a directory says, where `files` are its DSDL files and `package` is the package afterwards. -/
def ErrorInDirectory (root : List OsStr) (listing : List (Option Entry)) (files : List Entry) (package : Package) : AddError → Prop
  | .walk => none ∈ listing
  | .notUtf8 => ∃ f ∈ files, ∃ bs, .bytes bs ∈ f.path
  | .fileName => ∃ f ∈ files, ∃ s, f.path.getLast? = some (.text s) ∧ ¬ ∃ info, FileNameText info s.toList
  | .duplicate old => ∃ f ∈ files, ∃ key port, Defines root f.path key port ∧ ValidKey key ∧ SameName old key ∧ ∃ d, (old, d) ∈ package
  | e => ∃ f ∈ files, ∃ key port, Defines root f.path key port ∧ ErrorAbout key e

/-- The text of a file in a package: what the file system has at the path with which it was added, or the text with which it was added. -/
def IsText (disk : List OsStr → Option String) (f : DsdlFile) (text : String) : Prop :=
  (∃ path, f.source = .file path ∧ disk path = some text) ∨ f.source = .text text

end Verif.Pkg
