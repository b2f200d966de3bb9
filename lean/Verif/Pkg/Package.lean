import Verif.Pkg.Regex
import Verif.Parse.Ast

/-!
Model of `canadensis_dsdl_frontend`: the names of types (`type_key.rs`), reserved words (`types/keywords.rs`) and packages (`package.rs`).

The file system is what the code sees of it: the entries that `walkdir` finds, and what `read_to_string` reads from a path. The decimal digits outside ASCII are
any characters (`nd`).
-/

namespace Verif.Pkg

open Verif.Front (TypeKey Externals File Compiled Outcome)

/-! ### Characters in patterns -/

/-- `\d`: the decimal digits of Unicode (canadensis_dsdl_frontend/src/package.rs L346). -/
def digit (nd : Char → Bool) : Re := .char fun c => c.isDigit || (decide (128 ≤ c.toNat) && nd c)

/-- One character (canadensis_dsdl_frontend/src/package.rs L346). -/
def only (c : Char) : Re := .char fun d => d == c

/-- `[^.]` (canadensis_dsdl_frontend/src/package.rs L346). -/
def notDot : Re := .char fun c => c != '.'

/-- A lower-case letter in either case, where `(?i)` is on: U+017F is another form of `s` and U+212A of `k` (canadensis_dsdl_frontend/src/types/keywords.rs L23). -/
def anyCase (c : Char) : Re := .char fun d => d.toLower == c || (c == 's' && d == Char.ofNat 0x17F) || (c == 'k' && d == Char.ofNat 0x212A)

/-- A word in either case (canadensis_dsdl_frontend/src/types/keywords.rs L23-53). -/
def word (w : String) : Re := w.toList.foldr (fun c r => .seq (anyCase c) r) .empty

/-- A word as it is (canadensis_dsdl_frontend/src/package.rs L346). -/
def exactly (w : String) : Re := w.toList.foldr (fun c r => .seq (only c) r) .empty

/-- Alternatives, in order (canadensis_dsdl_frontend/src/types/keywords.rs L23-53). -/
def choice : List Re → Re
  | [] => .char fun _ => false
  | a :: rest => .alt a (choice rest)

/-! ### Reserved words -/

/-- `RESERVED` (canadensis_dsdl_frontend/src/types/keywords.rs L19-56). -/
def reserved (nd : Char → Bool) : Re := choice [
  word "truncated",
  word "saturated",
  word "true",
  word "false",
  word "bool",
  .seq (.opt (word "u")) (.seq (word "int") (.star (digit nd))),
  .seq (word "float") (.star (digit nd)),
  .seq (.opt (word "u")) (.seq (word "q") (.seq (.plus (digit nd)) (.seq (only '_') (.plus (digit nd))))),
  .seq (word "void") (.star (digit nd)),
  word "optional",
  word "aligned",
  word "const",
  word "struct",
  word "super",
  word "template",
  word "enum",
  word "self",
  word "and",
  word "or",
  word "not",
  word "auto",
  word "type",
  word "con",
  word "prn",
  word "aux",
  word "nul",
  .seq (word "com") (digit nd),
  .seq (word "lpt") (digit nd),
  .seq (only '_') (.seq (.star (.char fun c => c != '\n')) (only '_'))]

/-- `is_reserved_keyword` (canadensis_dsdl_frontend/src/types/keywords.rs L8-10). -/
def isReservedKeyword (nd : Char → Bool) (identifier : String) : Bool := (reserved nd).isMatch identifier.toList

/-- `IDENTIFIER` (canadensis_dsdl_frontend/src/types/keywords.rs L16). -/
def identifier : Re := .seq (.char fun c => c.isAlpha || c == '_') (.star (.char fun c => c.isAlpha || c.isDigit || c == '_'))

/-- `is_valid_identifier` (canadensis_dsdl_frontend/src/types/keywords.rs L12-14). -/
def isValidIdentifier (s : String) : Bool := identifier.isMatch s.toList

/-! ### Names of types as text -/

/-- `str::parse::<u8>` and `str::parse::<u32>` with this maximum, without a sign (used in canadensis_dsdl_frontend/src/package.rs L352-357, type_key.rs L164-165). -/
def parseNumber (max : Nat) (cs : List Char) : Option Nat :=
  if cs ≠ [] ∧ cs.all Char.isDigit ∧ Nat.ofDigitChars 10 cs 0 ≤ max then some (Nat.ofDigitChars 10 cs 0) else none

/-- `str::split('.')` (used in canadensis_dsdl_frontend/src/type_key.rs L179). -/
def splitDots : List Char → List (List Char)
  | [] => [[]]
  | c :: cs =>
    match splitDots cs with
    | [] => [[c]]
    | part :: parts => if c = '.' then [] :: part :: parts else (c :: part) :: parts

/-- `FromStr for TypeFullName` (canadensis_dsdl_frontend/src/type_key.rs L175-188): the path and the name. -/
def parseFullName (cs : List Char) : Option (List String × String) :=
  let components := (splitDots cs).map String.ofList
  if 2 ≤ components.length then components.getLast?.map fun name => (components.dropLast, name) else none

/-- The pattern of `FromStr for TypeKey` (canadensis_dsdl_frontend/src/type_key.rs L149-154). -/
def keyPattern (nd : Char → Bool) : Re :=
  .seq (.group "path_and_name" (.plus (.seq (.plus notDot) (only '.'))))
    (.seq (.group "version_major" (.plus (digit nd))) (.seq (only '.') (.group "version_minor" (.plus (digit nd)))))

/-- `FromStr for TypeKey` (canadensis_dsdl_frontend/src/type_key.rs L144-173), `none` for an error. The groups are always there. -/
def keyFromStr (nd : Char → Bool) (s : String) : Option TypeKey :=
  match (keyPattern nd).captures s.toList with
  | some captures =>
    match captures.lookup "path_and_name", captures.lookup "version_major", captures.lookup "version_minor" with
    | some pathAndName, some major, some minor =>
      match parseFullName pathAndName.dropLast, parseNumber 255 major, parseNumber 255 minor with
      | some (path, name), some major, some minor => some ⟨path, name, major, minor⟩
      | _, _, _ => none
    | _, _, _ => none
  | none => none

/-- `Display for TypeFullName` (canadensis_dsdl_frontend/src/type_key.rs L209-216). -/
def fullNameText (path : List String) (name : String) : List Char := path.flatMap (fun component => component.toList ++ ['.']) ++ name.toList

/-- `Display for TypeKey` and for `TypeVersion` (canadensis_dsdl_frontend/src/type_key.rs L203-207; canadensis_dsdl_parser/src/ast/types.rs L175-184). -/
def keyDisplay (k : TypeKey) : String :=
  String.ofList (fullNameText k.path k.name ++ '.' :: (toString k.major).toList ++ '.' :: (toString k.minor).toList)

/-- `TypeFullName::len` (canadensis_dsdl_frontend/src/type_key.rs L95-103). -/
def fullNameLen (path : List String) (name : String) : Nat := (path.map fun segment => segment.utf8ByteSize + 1).sum + name.utf8ByteSize

/-- `Ord for TypeKey` (canadensis_dsdl_frontend/src/type_key.rs L39-47, L80). -/
def keyCmp (a b : TypeKey) : Ordering :=
  compareLex (compareOn fun k : TypeKey => k.folded.1) (compareLex (compareOn fun k : TypeKey => k.folded.2.1) (compareOn fun k : TypeKey => k.folded.2.2)) a b

/-! ### Names of files -/

/-- `FileInfo` (canadensis_dsdl_frontend/src/package.rs L334-341). -/
structure FileInfo where
  port : Option Nat
  name : String
  major : Nat
  minor : Nat
deriving DecidableEq, Repr

/-- The pattern of `parse_file_name` (canadensis_dsdl_frontend/src/package.rs L345-348). -/
def fileNamePattern (nd : Char → Bool) : Re :=
  .seq (.opt (.seq (.group "port_id" (.plus (digit nd))) (only '.')))
    (.seq (.group "short_name" (.plus notDot))
      (.seq (only '.') (.seq (.group "version_major" (.plus (digit nd)))
        (.seq (only '.') (.seq (.group "version_minor" (.plus (digit nd)))
          (.seq (only '.') (.alt (exactly "uavcan") (exactly "dsdl"))))))))

/-- `parse_file_name` (canadensis_dsdl_frontend/src/package.rs L344-370). -/
def parseFileName (nd : Char → Bool) (name : String) : Option FileInfo :=
  match (fileNamePattern nd).captures name.toList with
  | some captures =>
    let port : Option (Option Nat) :=
      match captures.lookup "port_id" with
      | some digits => (parseNumber (2 ^ 32 - 1) digits).map some
      | none => some none
    match port, captures.lookup "short_name", captures.lookup "version_major", captures.lookup "version_minor" with
    | some port, some shortName, some major, some minor =>
      match parseNumber 255 major, parseNumber 255 minor with
      | some major, some minor => some ⟨port, String.ofList shortName, major, minor⟩
      | _, _ => none
    | _, _, _, _ => none
  | none => none

/-! ### Packages -/

/-- A component of a path: text, or bytes that are not UTF-8 (`OsStr` on Unix, used in canadensis_dsdl_frontend/src/package.rs L304-320). -/
inductive OsStr where
  | text (s : String)
  | bytes (bs : List UInt8)
deriving DecidableEq, Repr

/-- `FileSource` (canadensis_dsdl_frontend/src/package.rs L264-267). -/
inductive FileSource where
  | file (path : List OsStr)
  | text (s : String)
deriving DecidableEq, Repr

/-- `DsdlFile` (canadensis_dsdl_frontend/src/package.rs L258-261). -/
structure DsdlFile where
  source : FileSource
  port : Option Nat
deriving DecidableEq, Repr

/-- `Package` (canadensis_dsdl_frontend/src/package.rs L25-31): the entries of the map in its order. -/
abbrev Package := List (TypeKey × DsdlFile)

/-- `Error`, as far as `package.rs` returns it (canadensis_dsdl_frontend/src/package.rs L50, L59, L62, L143-228, L317, L323). -/
inductive AddError where
  | notInNamespace
  | nameLength
  | invalidIdentifier (component : String)
  | keyword (component : String)
  | versionZero
  | duplicate (old : TypeKey)
  | walk
  | notUtf8
  | fileName
deriving DecidableEq, Repr

/-- What a function returns: `Ok`, `Err`, or a panic. -/
inductive Returned where
  | ok
  | err (e : AddError)
  | panic
deriving DecidableEq, Repr

/-- The loop in `validate_full_key` (canadensis_dsdl_frontend/src/package.rs L203-222). -/
def validateSegments (nd : Char → Bool) : List String → Option AddError
  | [] => none
  | segment :: rest =>
    if !isValidIdentifier segment then some (.invalidIdentifier segment)
    else if isReservedKeyword nd segment then some (.keyword segment)
    else validateSegments nd rest

/-- `validate_full_key` (canadensis_dsdl_frontend/src/package.rs L193-228), `none` for `Ok`. -/
def validateFullKey (nd : Char → Bool) (key : TypeKey) : Option AddError :=
  if key.path.isEmpty then some .notInNamespace
  else if fullNameLen key.path key.name > 255 then some .nameLength
  else
    match validateSegments nd (key.path ++ [key.name]) with
    | some e => some e
    | none => if key.major = 0 ∧ key.minor = 0 then some .versionZero else none

/-- `BTreeMap::entry`: the key that is already there, or the map with a new entry (used in canadensis_dsdl_frontend/src/package.rs L145-154). -/
def Package.entry (key : TypeKey) (dsdl : DsdlFile) : Package → Except TypeKey Package
  | [] => .ok [(key, dsdl)]
  | e :: rest =>
    match keyCmp key e.1 with
    | .lt => .ok ((key, dsdl) :: e :: rest)
    | .eq => .error e.1
    | .gt => (Package.entry key dsdl rest).map fun rest => e :: rest

/-- `Package::try_insert` (canadensis_dsdl_frontend/src/package.rs L143-155): what it returns, and the package afterwards. -/
def Package.tryInsert (nd : Char → Bool) (p : Package) (key : TypeKey) (dsdl : DsdlFile) : Returned × Package :=
  match validateFullKey nd key with
  | some e => (.err e, p)
  | none =>
    match p.entry key dsdl with
    | .ok q => (.ok, q)
    | .error old => (.err (.duplicate old), p)

/-- `Package::add_file` (canadensis_dsdl_frontend/src/package.rs L84-100). -/
def Package.addFile (nd : Char → Bool) (p : Package) (port : Option Nat) (key : TypeKey) (path : List OsStr) : Returned × Package :=
  p.tryInsert nd key ⟨.file path, port⟩

/-- `Package::add_string` (canadensis_dsdl_frontend/src/package.rs L115-128). -/
def Package.addString (nd : Char → Bool) (p : Package) (port : Option Nat) (key : TypeKey) (dsdl : String) : Returned × Package :=
  p.tryInsert nd key ⟨.text dsdl, port⟩

/-! ### Directories -/

/-- What `walkdir` finds: the components of the path, and whether it is a file (used in canadensis_dsdl_frontend/src/package.rs L61-66, L231-240). -/
structure Entry where
  path : List OsStr
  isFile : Bool
deriving DecidableEq, Repr

/-- What is after the last `.` of a file name that has something before that `.` (`Path::extension`, used in canadensis_dsdl_frontend/src/package.rs L235).
A file is not named `..`. -/
def extensionOf {α : Type} [DecidableEq α] (dot : α) (name : List α) : Option (List α) :=
  let after := (name.reverse.takeWhile (· ≠ dot)).reverse
  if after.length + 1 < name.length then some after else none

/-- The comparison of the extension with a word (canadensis_dsdl_frontend/src/package.rs L236). -/
def OsStr.hasExtension (name : OsStr) (extension : String) : Bool :=
  match name with
  | .text s => extensionOf '.' s.toList == some extension.toList
  | .bytes bs => extensionOf '.'.toUInt8 bs == some (extension.toList.map Char.toUInt8)

/-- `is_dsdl` (canadensis_dsdl_frontend/src/package.rs L231-240). -/
def Entry.isDsdl (e : Entry) : Bool :=
  e.isFile && match e.path.getLast? with
    | some name => name.hasExtension "uavcan" || name.hasExtension "dsdl"
    | none => false

/-- `Result<T, Box<Error>>` of a function that may panic. -/
inductive Got (α : Type) where
  | ok (a : α)
  | err (e : AddError)
  | panic

/-- The loop in `info_from_path` (canadensis_dsdl_frontend/src/package.rs L304-311): what is left of the path of the file. `zip` takes from the root first;
`none` is the failed assertion. -/
def stripRoot : List OsStr → List OsStr → Option (List OsStr)
  | [], file => some file
  | _ :: _, [] => some []
  | r :: root, f :: file => if r = f then stripRoot root file else none

/-- The conversion of the components into text (canadensis_dsdl_frontend/src/package.rs L313-320). -/
def utf8Components : List OsStr → Option (List String)
  | [] => some []
  | .text s :: rest => (utf8Components rest).map fun rest => s :: rest
  | .bytes _ :: _ => none

/-- `info_from_path` (canadensis_dsdl_frontend/src/package.rs L303-330). -/
def infoFromPath (nd : Char → Bool) (root file : List OsStr) : Got (TypeKey × Option Nat) :=
  match stripRoot root file with
  | none => .panic
  | some components =>
    match utf8Components components with
    | none => .err .notUtf8
    | some components =>
      match components.getLast? with
      | none => .panic
      | some fileName =>
        match parseFileName nd fileName with
        | none => .err .fileName
        | some info => .ok (⟨components.dropLast, info.name, info.major, info.minor⟩, info.port)

/-- `Package::add_file_from_path` (canadensis_dsdl_frontend/src/package.rs L130-138). -/
def Package.addFileFromPath (nd : Char → Bool) (p : Package) (root : List OsStr) (file : Entry) : Returned × Package :=
  match infoFromPath nd root file.path with
  | .ok (key, port) => p.tryInsert nd key ⟨.file file.path, port⟩
  | .err e => (.err e, p)
  | .panic => (.panic, p)

/-- The loop in `Package::add_files` (canadensis_dsdl_frontend/src/package.rs L61-67); `none` is an entry that `walkdir` could not read. That the root is a directory
(L57-60) is assumed. -/
def Package.addFiles (nd : Char → Bool) (root : List OsStr) : List (Option Entry) → Package → Returned × Package
  | [], p => (.ok, p)
  | none :: _, p => (.err .walk, p)
  | some entry :: rest, p =>
    if entry.isDsdl then
      match p.addFileFromPath nd root entry with
      | (.ok, p) => Package.addFiles nd root rest p
      | r => r
    else Package.addFiles nd root rest p

/-! ### Compiling a package -/

/-- `DsdlFile::read` (canadensis_dsdl_frontend/src/package.rs L271-281), where `disk` is what the file system has. -/
def DsdlFile.read (disk : List OsStr → Option String) (f : DsdlFile) : Option String :=
  match f.source with
  | .file path => disk path
  | .text s => some s

/-- The file as the compiler sees it (canadensis_dsdl_frontend/src/compile.rs L284-285, L287-339), if the parser does not panic. -/
def DsdlFile.parsed (disk : List OsStr → Option String) (f : DsdlFile) : Outcome File :=
  match f.read disk with
  | none => .ok ⟨f.port, none⟩
  | some text =>
    match Parse.parse text with
    | .ok lines => .ok ⟨f.port, some (Parse.Line.statements lines)⟩
    | .error => .ok ⟨f.port, none⟩
    | .panic => .panic

/-- All files of a package as the compiler sees them. -/
def Package.parsed (disk : List OsStr → Option String) : Package → Outcome (List (TypeKey × File))
  | [] => .ok []
  | (key, f) :: rest => (f.parsed disk).bind fun file => (Package.parsed disk rest).bind fun files => .ok ((key, file) :: files)

/-- `Package::compile` (canadensis_dsdl_frontend/src/package.rs L165-188), without warnings. The code reads and parses each file when it compiles it; here all files are
parsed first, which makes no difference unless the parser panics. -/
def Package.compile (x : Externals) (disk : List OsStr → Option String) (p : Package) : Outcome (List (TypeKey × Compiled)) :=
  (Package.parsed disk p).bind fun files => Front.compile x files

end Verif.Pkg
