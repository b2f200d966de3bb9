import Verif.Front.Compile

/-!
Specification: how a DSDL definition is written, after chapter 3 of the Cyphal specification. It says which statements a text stands for, with the precedence
of the operators as a number; it knows nothing of the parser.
-/

namespace Verif.Parse

open Verif.Front

/-- White space within a line. -/
def Blank (t : List Char) : Prop := ∀ c ∈ t, c = ' ' ∨ c = '\t'

/-- White space that is there. -/
def Blanks (t : List Char) : Prop := Blank t ∧ t ≠ []

/-! ### Numbers -/

/-- The value of a digit. -/
def DigitChar (c : Char) (d : Nat) : Prop :=
  (d < 10 ∧ c.toNat = '0'.toNat + d) ∨ (10 ≤ d ∧ d < 16 ∧ (c.toNat = 'a'.toNat + (d - 10) ∨ c.toNat = 'A'.toNat + (d - 10)))

/-- The value of digits to a base; `_` may stand anywhere and means nothing. -/
inductive Digits (base : Nat) : List Char → Nat → Prop
  | nil : Digits base [] 0
  | digit {t n c d} : Digits base t n → DigitChar c d → d < base → Digits base (t ++ [c]) (n * base + d)
  | skip {t n} : Digits base t n → Digits base (t ++ ['_']) n

/-- A `_` stands only before a digit, and only one. -/
inductive Separated : List Char → Prop
  | nil : Separated []
  | digit {c t} : c ≠ '_' → Separated t → Separated (c :: t)
  | skip {c t} : c ≠ '_' → Separated t → Separated ('_' :: c :: t)

/-- Digits to a base; each may have a `_` before it. -/
def Spaced (base : Nat) (t : List Char) (n : Nat) : Prop := Digits base t n ∧ Separated t ∧ t ≠ []

/-- Decimal digits; each but the first may have a `_` before it. -/
def Group (t : List Char) (n : Nat) : Prop := Spaced 10 t n ∧ t.head? ≠ some '_'

/-- Decimal digits without `_`, and without zeros before another number. -/
def Decimal (t : List Char) (n : Nat) : Prop := Digits 10 t n ∧ '_' ∉ t ∧ t ≠ [] ∧ (t.head? = some '0' → n = 0)

/-- The number of digits. -/
def digitCount (t : List Char) : Nat := (t.filter (· ≠ '_')).length

/-- Numbers without exponent: `12`, `12.`, `12.5`, `.5`. `count` is the number of places after the point. -/
inductive Mantissa (count : List Char → Nat) : List Char → ℚ → Prop
  | whole {t n} : Group t n → Mantissa count t n
  | point {t n} : Group t n → Mantissa count (t ++ ['.']) n
  | fraction {t n f m} : Group t n → Group f m → Mantissa count (t ++ '.' :: f) (n + m / 10 ^ count f)
  | onlyFraction {f m} : Group f m → Mantissa count ('.' :: f) (m / 10 ^ count f)

/-- Numbers. A decimal integer has no zeros before another number. `limit` is what an exponent may be. -/
inductive Numeral (count : List Char → Nat) (limit : Nat → Prop) : List Char → ℚ → Prop
  | binary {x t n} : x = 'b' ∨ x = 'B' → Spaced 2 t n → Numeral count limit ('0' :: x :: t) n
  | octal {x t n} : x = 'o' ∨ x = 'O' → Spaced 8 t n → Numeral count limit ('0' :: x :: t) n
  | hexadecimal {x t n} : x = 'x' ∨ x = 'X' → Spaced 16 t n → Numeral count limit ('0' :: x :: t) n
  | integer {t n} : Group t n → (t.head? = some '0' → n = 0) → Numeral count limit t n
  | real {t q} : Mantissa count t q → '.' ∈ t → Numeral count limit t q
  | exponent {t q e n x} : Mantissa count t q → x = 'e' ∨ x = 'E' → Group e n → limit n → Numeral count limit (t ++ x :: e) (q * 10 ^ n)
  | exponentPlus {t q e n x} : Mantissa count t q → x = 'e' ∨ x = 'E' → Group e n → limit n → Numeral count limit (t ++ x :: '+' :: e) (q * 10 ^ n)
  | exponentMinus {t q e n x} : Mantissa count t q → x = 'e' ∨ x = 'E' → Group e n → limit n → Numeral count limit (t ++ x :: '-' :: e) (q / 10 ^ n)

/-! ### Strings -/

/-- Escape sequences of one character. -/
def escapes : List (Char × Char) := [('\\', '\\'), ('r', '\r'), ('n', '\n'), ('t', '\t'), ('\'', '\''), ('"', '"')]

/-- The number of a Unicode escape sequence. -/
def Hex (ds : List Char) (n : Nat) : Prop := '_' ∉ ds ∧ Digits 16 ds n

/-- The text within quotation marks `q`, and what it stands for. `hex` is the number of a Unicode escape sequence. -/
inductive Quoted (hex : List Char → Nat → Prop) (q : Char) : List Char → List Char → Prop
  | nil : Quoted hex q [] []
  | plain {c t v} : c ≠ '\\' → c ≠ q → Quoted hex q t v → Quoted hex q (c :: t) (c :: v)
  | escape {c d t v} : (c, d) ∈ escapes → Quoted hex q t v → Quoted hex q ('\\' :: c :: t) (d :: v)
  | unicode4 {ds n t v} : ds.length = 4 → hex ds n → n.isValidChar → Quoted hex q t v → Quoted hex q ('\\' :: 'u' :: ds ++ t) (Char.ofNat n :: v)
  | unicode8 {ds n t v} : ds.length = 8 → hex ds n → n.isValidChar → Quoted hex q t v → Quoted hex q ('\\' :: 'U' :: ds ++ t) (Char.ofNat n :: v)

/-- String literals. -/
def StringText (hex : List Char → Nat → Prop) (t : List Char) (s : String) : Prop :=
  ∃ q body, (q = '\'' ∨ q = '"') ∧ t = q :: body ++ [q] ∧ Quoted hex q body s.toList

/-! ### Names and types -/

/-- The first character of a name. -/
def NameStart (c : Char) : Prop := ('a' ≤ c ∧ c ≤ 'z') ∨ ('A' ≤ c ∧ c ≤ 'Z') ∨ c = '_'

/-- The other characters of a name. -/
def NameChar (c : Char) : Prop := NameStart c ∨ ('0' ≤ c ∧ c ≤ '9')

/-- Names. -/
def Name (t : List Char) : Prop := ∃ c cs, t = c :: cs ∧ NameStart c ∧ ∀ d ∈ cs, NameChar d

/-- Names with points in between. -/
inductive Path : List String → List Char → Prop
  | one {t} : Name t → Path [String.ofList t] t
  | more {ns p t} : Path ns p → Name t → Path (ns ++ [String.ofList t]) (p ++ '.' :: t)

/-- `saturated ` or `truncated ` before the name of a type. -/
inductive ModeText : CastMode → List Char → Prop
  | default : ModeText .saturated []
  | saturated {x} : Blanks x → ModeText .saturated ("saturated".toList ++ x)
  | truncated {x} : Blanks x → ModeText .truncated ("truncated".toList ++ x)

/-- Primitive types. -/
inductive PrimText : Prim → List Char → Prop
  | boolean : PrimText .boolean "bool".toList
  | byte : PrimText .byte "byte".toList
  | utf8 : PrimText .utf8 "utf8".toList
  | uint {m x t n} : ModeText m x → Decimal t n → 1 ≤ n → n ≤ 64 → PrimText (.uint n m) (x ++ "uint".toList ++ t)
  | int {x t n} : ModeText .saturated x → Decimal t n → 1 ≤ n → n ≤ 64 → PrimText (.int n) (x ++ "int".toList ++ t)
  | float16 {m x t} : ModeText m x → Decimal t 16 → PrimText (.float16 m) (x ++ "float".toList ++ t)
  | float32 {m x t} : ModeText m x → Decimal t 32 → PrimText (.float32 m) (x ++ "float".toList ++ t)
  | float64 {m x t} : ModeText m x → Decimal t 64 → PrimText (.float64 m) (x ++ "float".toList ++ t)

/-- Types that are no arrays. -/
inductive ScalarText : ScalarTy → List Char → Prop
  | prim {p t} : PrimText p t → ScalarText (.prim p) t
  | void {t n} : Decimal t n → 1 ≤ n → n ≤ 64 → ScalarText (.void n) ("void".toList ++ t)
  | versioned {ns n p a b major minor} : Path (ns ++ [n]) p → Decimal a major → Decimal b minor → major ≤ 255 → minor ≤ 255 →
      ScalarText (.versioned ⟨ns, n, major, minor⟩) (p ++ '.' :: a ++ '.' :: b)

/-! ### Expressions -/

/-- The binary operators that group from the left, with their precedence: the higher, the tighter. -/
def operators : List (String × BinOp × Nat) :=
  [("||", .logicalOr, 0), ("&&", .logicalAnd, 0),
    ("==", .equal, 2), ("!=", .notEqual, 2), ("<=", .lessOrEqual, 2), (">=", .greaterOrEqual, 2), ("<", .less, 2), (">", .greater, 2),
    ("|", .bitOr, 3), ("^", .bitXor, 3), ("&", .bitAnd, 3),
    ("+", .add, 4), ("-", .subtract, 4),
    ("*", .multiply, 5), ("/", .divide, 5), ("%", .modulo, 5)]

/-- The signs before an expression. -/
def signs : List (Char × UnOp) := [('+', .plus), ('-', .minus)]

/-- How the length of an array is written. -/
def arrayOpen : ArrayKind → List Char
  | .fixed => []
  | .inclusive => "<=".toList
  | .exclusive => "<".toList

/-- How literals and names are written; `close t x` says that an attribute may come after the text `t` and the white space `x`. -/
structure Style where
  number : List Char → ℚ → Prop
  string : List Char → String → Prop
  name : List Char → Prop
  scalar : ScalarTy → List Char → Prop
  close : List Char → List Char → Prop

/-- What a text stands for. -/
inductive Item where
  /-- An expression whose outermost operator has at least this precedence. -/
  | expr (precedence : Nat) (e : Expr)
  /-- Expressions with commas in between. -/
  | list (es : List Expr)

/-- A text stands for an expression. -/
inductive Written (S : Style) : Item → List Char → Prop
  | tighter {k e t} : k < 9 → Written S (.expr (k + 1) e) t → Written S (.expr k e) t
  /-- `a || b`, `a == b`, `a | b`, `a + b`, `a * b`, …: from the left. -/
  | binary {s op k a t x y b u} : (s, op, k) ∈ operators → Written S (.expr k a) t → Blank x → Blank y → Written S (.expr (k + 1) b) u →
      Written S (.expr k (.binary op a b)) (t ++ x ++ s.toList ++ y ++ u)
  /-- `!a`: looser than comparisons. -/
  | not {x e t} : Blank x → Written S (.expr 1 e) t → Written S (.expr 1 (.unary .not e)) ('!' :: x ++ t)
  /-- `+a` and `-a`: looser than `**`. -/
  | sign {c op x e t} : (c, op) ∈ signs → Blank x → Written S (.expr 7 e) t → Written S (.expr 6 (.unary op e)) (c :: x ++ t)
  /-- `a ** b`: from the right, and a sign may come after it. -/
  | power {a t x y b u} : Written S (.expr 8 a) t → Blank x → Blank y → Written S (.expr 6 b) u →
      Written S (.expr 7 (.binary .exponent a b)) (t ++ x ++ "**".toList ++ y ++ u)
  /-- `a.b`. -/
  | attribute {e t x y n} : Written S (.expr 8 e) t → Blank x → Blank y → Name n → S.close t x →
      Written S (.expr 8 (.attribute e (String.ofList n))) (t ++ x ++ '.' :: y ++ n)
  | parenthesized {x y e t} : Blank x → Blank y → Written S (.expr 0 e) t → Written S (.expr 9 (.parenthesized e)) ('(' :: x ++ t ++ y ++ [')'])
  | identifier {n} : Name n → S.name n → Written S (.expr 9 (.identifier (String.ofList n))) n
  | number {t q} : S.number t q → Written S (.expr 9 (.number q)) t
  | string {t s} : S.string t s → Written S (.expr 9 (.string s)) t
  | true : Written S (.expr 9 (.boolean true)) "true".toList
  | false : Written S (.expr 9 (.boolean false)) "false".toList
  | emptySet {x y} : Blank x → Blank y → Written S (.expr 9 (.set [])) ('{' :: x ++ y ++ ['}'])
  | set {x y es t} : Blank x → Blank y → Written S (.list es) t → Written S (.expr 9 (.set es)) ('{' :: x ++ t ++ y ++ ['}'])
  | scalarType {s t} : S.scalar s t → Written S (.expr 9 (.scalarType s)) t
  | arrayType {s t k x y z w e u} : S.scalar s t → Blank x → Blank y → Blank z → Blank w → (k = .fixed → z = []) → Written S (.expr 0 e) u →
      Written S (.expr 9 (.arrayType s k e)) (t ++ x ++ '[' :: y ++ arrayOpen k ++ z ++ u ++ w ++ [']'])
  | one {e t} : Written S (.expr 0 e) t → Written S (.list [e]) t
  | more {es t x y e u} : Written S (.list es) t → Blank x → Blank y → Written S (.expr 0 e) u → Written S (.list (es ++ [e])) (t ++ x ++ ',' :: y ++ u)

/-! ### Statements -/

/-- A field's type: no `utf8` or `byte` alone, and no array of `utf8` with a fixed length. -/
def FieldType : Expr → TypeAst → Prop
  | .scalarType s, ty => ty = .scalar s ∧ s ≠ .prim .utf8 ∧ s ≠ .prim .byte
  | .arrayType s k e, ty => ty = .array s k e ∧ ¬ (s = .prim .utf8 ∧ k = .fixed)
  | _, _ => False

/-- A text stands for a statement. -/
inductive StatementText (S : Style) : Statement → List Char → Prop
  | directive {n} : Name n → StatementText S (.directive (String.ofList n) none) ('@' :: n)
  | directiveExpr {n x e t} : Name n → Blanks x → Written S (.expr 0 e) t → StatementText S (.directive (String.ofList n) (some e)) ('@' :: n ++ x ++ t)
  | constant {p t x n y z e u} : S.scalar (.prim p) t → Blanks x → Name n → Blank y → Blank z → Written S (.expr 0 e) u →
      StatementText S (.constant p (String.ofList n) e) (t ++ x ++ n ++ y ++ '=' :: z ++ u)
  | field {e ty t x n} : Written S (.expr 9 e) t → FieldType e ty → Blanks x → Name n → StatementText S (.field ty (String.ofList n)) (t ++ x ++ n)
  | padding {n t} : S.scalar (.void n) t → StatementText S (.padding n) t
  | responseMarker {t} : 3 ≤ t.length → (∀ c ∈ t, c = '-') → StatementText S .responseMarker t

/-- A comment or a statement. -/
inductive Line where
  | statement (s : Statement)
  | comment (text : String)

/-- A line without its end: a statement, white space, a comment, each of them may be missing. -/
inductive LineText (S : Style) : List Line → List Char → Prop
  | empty {x} : Blank x → LineText S [] x
  | statement {s t x} : StatementText S s t → Blank x → LineText S [.statement s] (t ++ x)
  | comment {x c} : Blank x → '\r' ∉ c → '\n' ∉ c → LineText S [.comment (String.ofList c)] (x ++ '#' :: c)
  | both {s t x c} : StatementText S s t → Blank x → '\r' ∉ c → '\n' ∉ c → LineText S [.statement s, .comment (String.ofList c)] (t ++ x ++ '#' :: c)

/-- The end of a line. -/
def LineEnd (t : List Char) : Prop := t = ['\n'] ∨ t = ['\r', '\n']

/-- A text stands for a definition. -/
inductive DefinitionText (S : Style) : List Line → List Char → Prop
  | last {ls t} : LineText S ls t → DefinitionText S ls t
  | line {ls t e ls' u} : LineText S ls t → LineEnd e → DefinitionText S ls' u → DefinitionText S (ls ++ ls') (t ++ e ++ u)

/-! ### The specification and the parser -/

/-- Names that are something else: `true` and `false`, and types. -/
def Keyword (n : List Char) : Prop :=
  (∃ w ∈ ["bool", "utf8", "byte", "true", "false"], n = w.toList) ∨
    ∃ w ∈ ["uint", "int", "float", "void"], ∃ d ds, '1' ≤ d ∧ d ≤ '9' ∧ (∀ c ∈ ds, '0' ≤ c ∧ c ≤ '9') ∧ n = w.toList ++ d :: ds

/-- As it is specified. -/
def specified : Style where
  number := Numeral digitCount fun _ => True
  string := StringText Hex
  name n := ¬ Keyword n
  scalar := ScalarText
  close _ _ := True

/-- Names that the parser takes for something else: those that only begin with a word that is something else, too. -/
def Reserved (n : List Char) : Prop :=
  (∃ w ∈ ["bool", "utf8", "byte", "true", "false"], w.toList <+: n) ∨
    ∃ w ∈ ["uint", "int", "float", "void"], ∃ d, '1' ≤ d ∧ d ≤ '9' ∧ w.toList ++ [d] <+: n

/-- The number of a Unicode escape sequence for the parser: the first character may be `+`. -/
def HexPlus (ds : List Char) (n : Nat) : Prop := Hex ds n ∨ ∃ rest, ds = '+' :: rest ∧ rest ≠ [] ∧ Hex rest n

/-- What the parser accepts and how it takes it: it counts `_` as a place after the point, numbers do not begin with a point, exponents are less than 2¹²⁸,
Unicode escape sequences may have a sign, there are more words that cannot be names, and there is white space between a decimal integer and `.`. -/
def accepted : Style where
  number t q := Numeral List.length (· < 2 ^ 128) t q ∧ t.head? ≠ some '.'
  string := StringText HexPlus
  name n := ¬ Reserved n
  scalar := ScalarText
  close t x := x ≠ [] ∨ ∀ n, ¬ Group t n

/-- The text has a point that is followed by digits and `_`, at least one `_` among them. -/
def SplitFraction (t : List Char) : Prop := ∃ w f r, t = w ++ '.' :: f ++ r ∧ '_' ∈ f ∧ ∀ c ∈ f, c = '_' ∨ ('0' ≤ c ∧ c ≤ '9')

/-- The text has a Unicode escape sequence whose digits begin with a sign. -/
def PlusEscape (t : List Char) : Prop := ∃ a u b, t = a ++ '\\' :: u :: '+' :: b ∧ (u = 'u' ∨ u = 'U')

/-- Where the specification and the parser agree: as it is specified, but numbers do not begin with a point, have no `_` after the point and exponents below 2¹²⁸,
names do not begin with words that are something else, and there is white space between a decimal integer and `.`. -/
def shared : Style where
  number t q := Numeral digitCount (· < 2 ^ 128) t q ∧ t.head? ≠ some '.' ∧ ¬ SplitFraction t
  string := StringText Hex
  name n := ¬ Reserved n
  scalar := ScalarText
  close t x := x ≠ [] ∨ ∀ n, ¬ Group t n

end Verif.Parse
