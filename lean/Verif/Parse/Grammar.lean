import Verif.Parse.Peg

/-!
The grammar of DSDL: canadensis_dsdl_parser/src/dsdl.pest, rule by rule, with the names from there. `EOI` is a rule of `pest` that gives a pair.
-/

namespace Verif.Parse

/-- The rules of the grammar, `Rule` (derived from canadensis_dsdl_parser/src/dsdl.pest in canadensis_dsdl_parser/src/lib.rs L25-31). -/
inductive Rule where
  | EOI
  | definition | line | comment | comment_content | end_of_line | ws | identifier
  | statement | statement_attribute | statement_constant | statement_field | statement_padding_field | statement_service_response_marker
  | statement_directive | statement_directive_with_expression | statement_directive_without_expression
  | dtype | type_array | type_array_variable_inclusive | type_array_variable_exclusive | type_array_fixed
  | type_scalar | type_versioned | type_version_specifier
  | type_primitive | type_primitive_truncated | type_primitive_saturated | type_primitive_bool | type_primitive_name
  | type_primitive_name_boolean | type_primitive_name_utf8 | type_primitive_name_byte
  | type_primitive_name_unsigned_integer | type_primitive_name_signed_integer | type_primitive_name_floating_point
  | type_void | type_bit_length_suffix
  | expression | expression_list | expression_parenthesized | expression_atom
  | ex_logical | ex_logical_not | ex_comparison | ex_bitwise | ex_additive | ex_multiplicative | ex_inversion | ex_exponential | ex_attribute
  | op1_form_log_not | op1_form_inv_pos | op1_form_inv_neg
  | op2_log | op2_log_or | op2_log_and
  | op2_cmp | op2_cmp_equ | op2_cmp_neq | op2_cmp_leq | op2_cmp_geq | op2_cmp_lss | op2_cmp_grt
  | op2_bit | op2_bit_or | op2_bit_xor | op2_bit_and
  | op2_add | op2_add_add | op2_add_sub
  | op2_mul | op2_mul_mul | op2_mul_div | op2_mul_mod
  | op2_exp | op2_exp_pow
  | op2_attrib
  | literal | literal_set
  | literal_integer | literal_integer_binary | literal_integer_octal | literal_integer_hexadecimal | literal_integer_decimal
  | literal_real | literal_real_exponent_notation | literal_real_point_notation | literal_real_fraction | literal_real_exponent | literal_real_digits
  | literal_string | literal_string_single_quoted | literal_string_double_quoted
  | literal_boolean | literal_boolean_true | literal_boolean_false
deriving DecidableEq, Repr

/-- The rules with `_{ }` (canadensis_dsdl_parser/src/dsdl.pest L1-6, L13, L17, L101, L106). -/
def Rule.silent : Rule → Bool
  | .definition | .line | .comment | .end_of_line | .ws | .statement | .statement_attribute | .ex_logical_not | .ex_inversion => true
  | _ => false

/-- A sequence, `~` in a `.pest` file. -/
local infixr:65 " ~~ " => Peg.seq
/-- A choice, `|` in a `.pest` file. -/
local infixr:60 " // " => Peg.choice

/-- A text, `"…"` in a `.pest` file. -/
local notation "⟪" s "⟫" => Peg.lit s

instance : Coe Rule (Peg Rule) := ⟨Peg.rule⟩

/-- `e?` and `e*` and `e+` in a `.pest` file. -/
abbrev opt (e : Peg Rule) : Peg Rule := .opt e
/-- See `opt`. -/
abbrev many (e : Peg Rule) : Peg Rule := .star e
/-- See `opt`. -/
abbrev some' (e : Peg Rule) : Peg Rule := e ~~ .star e
/-- `ws?` in the grammar. -/
abbrev ows : Peg Rule := .opt (.rule .ws)
/-- `e ~ (ws? ~ op ~ ws? ~ e')*` in the rules of the binary operators (canadensis_dsdl_parser/src/dsdl.pest L100-107). -/
abbrev operands (e op e' : Rule) : Peg Rule := e ~~ many (ows ~~ op ~~ ows ~~ e')
/-- `!(a | b) ~ ANY` in the grammar. -/
abbrev except (a b : String) : Peg Rule := .not (⟪a⟫ // ⟪b⟫) ~~ .any
/-- The rules of string literals (canadensis_dsdl_parser/src/dsdl.pest L190-191). -/
abbrev quoted (q : String) : Peg Rule :=
  ⟪q⟫ ~~ many (except q "\\") ~~ many (⟪"\\"⟫ ~~ except "\r" "\n" ~~ many (except q "\\")) ~~ ⟪q⟫

/-- The right hand sides (canadensis_dsdl_parser/src/dsdl.pest). -/
def Rule.body : Rule → Peg Rule
  | .EOI => .eoi
  | .definition => .soi ~~ .rule .line ~~ many (.rule .end_of_line ~~ .rule .line) ~~ .rule .EOI
  | .line => opt (.rule .statement) ~~ ows ~~ opt (.rule .comment)
  | .comment => ⟪"#"⟫ ~~ .rule .comment_content
  | .comment_content => many (except "\r" "\n")
  | .end_of_line => opt ⟪"\r"⟫ ~~ ⟪"\n"⟫
  | .ws => some' (⟪" "⟫ // ⟪"\t"⟫)
  | .identifier =>
    (.range 'a' 'z' // .range 'A' 'Z' // ⟪"_"⟫) ~~ many (.range 'a' 'z' // .range 'A' 'Z' // .range '0' '9' // ⟪"_"⟫)
  | .statement => .rule .statement_directive // .rule .statement_service_response_marker // .rule .statement_attribute
  | .statement_attribute => .rule .statement_constant // .rule .statement_field // .rule .statement_padding_field
  | .statement_constant => .rule .type_primitive ~~ .rule .ws ~~ .rule .identifier ~~ ows ~~ ⟪"="⟫ ~~ ows ~~ .rule .expression
  | .statement_field => .rule .dtype ~~ .rule .ws ~~ .rule .identifier
  | .statement_padding_field => .rule .type_void ~~ ⟪""⟫
  | .statement_service_response_marker => ⟪"---"⟫ ~~ many ⟪"-"⟫
  | .statement_directive => .rule .statement_directive_with_expression // .rule .statement_directive_without_expression
  | .statement_directive_with_expression => ⟪"@"⟫ ~~ .rule .identifier ~~ .rule .ws ~~ .rule .expression
  | .statement_directive_without_expression => ⟪"@"⟫ ~~ .rule .identifier
  | .dtype => .rule .type_array // .rule .type_scalar
  | .type_array => .rule .type_array_variable_inclusive // .rule .type_array_variable_exclusive // .rule .type_array_fixed
  | .type_array_variable_inclusive => .rule .type_scalar ~~ ows ~~ ⟪"["⟫ ~~ ows ~~ ⟪"<="⟫ ~~ ows ~~ .rule .expression ~~ ows ~~ ⟪"]"⟫
  | .type_array_variable_exclusive => .rule .type_scalar ~~ ows ~~ ⟪"["⟫ ~~ ows ~~ ⟪"<"⟫ ~~ ows ~~ .rule .expression ~~ ows ~~ ⟪"]"⟫
  | .type_array_fixed => .rule .type_scalar ~~ ows ~~ ⟪"["⟫ ~~ ows ~~ .rule .expression ~~ ows ~~ ⟪"]"⟫
  | .type_scalar => .rule .type_versioned // .rule .type_primitive // .rule .type_void
  | .type_versioned => .rule .identifier ~~ many (⟪"."⟫ ~~ .rule .identifier) ~~ ⟪"."⟫ ~~ .rule .type_version_specifier
  | .type_version_specifier => .rule .literal_integer_decimal ~~ ⟪"."⟫ ~~ .rule .literal_integer_decimal
  | .type_primitive =>
    .rule .type_primitive_truncated // .rule .type_primitive_saturated // .rule .type_primitive_bool // .rule .type_primitive_name_utf8 //
      .rule .type_primitive_name_byte
  | .type_primitive_truncated => ⟪"truncated"⟫ ~~ .rule .ws ~~ .rule .type_primitive_name
  | .type_primitive_saturated => opt (⟪"saturated"⟫ ~~ .rule .ws) ~~ .rule .type_primitive_name
  | .type_primitive_bool => .rule .type_primitive_name_boolean
  | .type_primitive_name =>
    .rule .type_primitive_name_unsigned_integer // .rule .type_primitive_name_signed_integer // .rule .type_primitive_name_floating_point
  | .type_primitive_name_boolean => ⟪"bool"⟫
  | .type_primitive_name_utf8 => ⟪"utf8"⟫
  | .type_primitive_name_byte => ⟪"byte"⟫
  | .type_primitive_name_unsigned_integer => ⟪"uint"⟫ ~~ .rule .type_bit_length_suffix
  | .type_primitive_name_signed_integer => ⟪"int"⟫ ~~ .rule .type_bit_length_suffix
  | .type_primitive_name_floating_point => ⟪"float"⟫ ~~ .rule .type_bit_length_suffix
  | .type_void => ⟪"void"⟫ ~~ .rule .type_bit_length_suffix
  | .type_bit_length_suffix => .range '1' '9' ~~ many (.range '0' '9')
  | .expression => .rule .ex_logical
  | .expression_list => opt (.rule .expression ~~ many (ows ~~ ⟪","⟫ ~~ ows ~~ .rule .expression))
  | .expression_parenthesized => ⟪"("⟫ ~~ ows ~~ .rule .expression ~~ ows ~~ ⟪")"⟫
  | .expression_atom => .rule .expression_parenthesized // .rule .dtype // .rule .literal // .rule .identifier
  | .ex_logical => operands .ex_logical_not .op2_log .ex_logical_not
  | .ex_logical_not => .rule .op1_form_log_not // .rule .ex_comparison
  | .ex_comparison => operands .ex_bitwise .op2_cmp .ex_bitwise
  | .ex_bitwise => operands .ex_additive .op2_bit .ex_additive
  | .ex_additive => operands .ex_multiplicative .op2_add .ex_multiplicative
  | .ex_multiplicative => operands .ex_inversion .op2_mul .ex_inversion
  | .ex_inversion => .rule .op1_form_inv_pos // .rule .op1_form_inv_neg // .rule .ex_exponential
  | .ex_exponential => .rule .ex_attribute ~~ opt (ows ~~ .rule .op2_exp ~~ ows ~~ .rule .ex_inversion)
  | .ex_attribute => operands .expression_atom .op2_attrib .identifier
  | .op1_form_log_not => ⟪"!"⟫ ~~ ows ~~ .rule .ex_logical_not
  | .op1_form_inv_pos => ⟪"+"⟫ ~~ ows ~~ .rule .ex_exponential
  | .op1_form_inv_neg => ⟪"-"⟫ ~~ ows ~~ .rule .ex_exponential
  | .op2_log => .rule .op2_log_or // .rule .op2_log_and
  | .op2_log_or => ⟪"||"⟫
  | .op2_log_and => ⟪"&&"⟫
  | .op2_cmp => .rule .op2_cmp_equ // .rule .op2_cmp_geq // .rule .op2_cmp_leq // .rule .op2_cmp_neq // .rule .op2_cmp_lss // .rule .op2_cmp_grt
  | .op2_cmp_equ => ⟪"=="⟫
  | .op2_cmp_neq => ⟪"!="⟫
  | .op2_cmp_leq => ⟪"<="⟫
  | .op2_cmp_geq => ⟪">="⟫
  | .op2_cmp_lss => ⟪"<"⟫
  | .op2_cmp_grt => ⟪">"⟫
  | .op2_bit => .rule .op2_bit_or // .rule .op2_bit_xor // .rule .op2_bit_and
  | .op2_bit_or => ⟪"|"⟫
  | .op2_bit_xor => ⟪"^"⟫
  | .op2_bit_and => ⟪"&"⟫
  | .op2_add => .rule .op2_add_add // .rule .op2_add_sub
  | .op2_add_add => ⟪"+"⟫
  | .op2_add_sub => ⟪"-"⟫
  | .op2_mul => .rule .op2_mul_mul // .rule .op2_mul_div // .rule .op2_mul_mod
  | .op2_mul_mul => ⟪"*"⟫
  | .op2_mul_div => ⟪"/"⟫
  | .op2_mul_mod => ⟪"%"⟫
  | .op2_exp => .rule .op2_exp_pow
  | .op2_exp_pow => ⟪"**"⟫
  | .op2_attrib => ⟪"."⟫
  | .literal => .rule .literal_set // .rule .literal_real // .rule .literal_integer // .rule .literal_string // .rule .literal_boolean
  | .literal_set => ⟪"{"⟫ ~~ ows ~~ .rule .expression_list ~~ ows ~~ ⟪"}"⟫
  | .literal_integer =>
    .rule .literal_integer_binary // .rule .literal_integer_octal // .rule .literal_integer_hexadecimal // .rule .literal_integer_decimal
  | .literal_integer_binary => ⟪"0"⟫ ~~ (⟪"b"⟫ // ⟪"B"⟫) ~~ some' (opt ⟪"_"⟫ ~~ (⟪"0"⟫ // ⟪"1"⟫))
  | .literal_integer_octal => ⟪"0"⟫ ~~ (⟪"o"⟫ // ⟪"O"⟫) ~~ some' (opt ⟪"_"⟫ ~~ .range '0' '7')
  | .literal_integer_hexadecimal =>
    ⟪"0"⟫ ~~ (⟪"x"⟫ // ⟪"X"⟫) ~~ some' (opt ⟪"_"⟫ ~~ (.range '0' '9' // .range 'a' 'f' // .range 'A' 'F'))
  | .literal_integer_decimal => some' (⟪"0"⟫ ~~ many (opt ⟪"_"⟫ ~~ ⟪"0"⟫)) // .range '1' '9' ~~ many (opt ⟪"_"⟫ ~~ .range '0' '9')
  | .literal_real => .rule .literal_real_exponent_notation // .rule .literal_real_point_notation
  | .literal_real_exponent_notation => (.rule .literal_real_point_notation // .rule .literal_real_digits) ~~ .rule .literal_real_exponent
  | .literal_real_point_notation => (opt (.rule .literal_real_digits) ~~ .rule .literal_real_fraction) // (.rule .literal_real_digits ~~ ⟪"."⟫)
  | .literal_real_fraction => ⟪"."⟫ ~~ .rule .literal_real_digits
  | .literal_real_exponent => (⟪"e"⟫ // ⟪"E"⟫) ~~ opt (⟪"+"⟫ // ⟪"-"⟫) ~~ .rule .literal_real_digits
  | .literal_real_digits => .range '0' '9' ~~ many (opt ⟪"_"⟫ ~~ .range '0' '9')
  | .literal_string => .rule .literal_string_single_quoted // .rule .literal_string_double_quoted
  | .literal_string_single_quoted => quoted "'"
  | .literal_string_double_quoted => quoted "\""
  | .literal_boolean => .rule .literal_boolean_true // .rule .literal_boolean_false
  | .literal_boolean_true => ⟪"true"⟫
  | .literal_boolean_false => ⟪"false"⟫

/-- The grammar (canadensis_dsdl_parser/src/dsdl.pest). -/
def dsdl : Grammar Rule := ⟨Rule.silent, Rule.body⟩

/-! ### Matching ends -/

/-- The rules that may match the empty text. -/
def Rule.nullable : Rule → Bool
  | .EOI | .definition | .line | .comment_content | .expression_list => true
  | _ => false

/-- Each rule uses only rules of lower ranks before it matches a character. -/
def Rule.rank : Rule → Nat
  | .type_primitive_name | .type_primitive_bool | .type_versioned | .literal_real_point_notation | .literal_integer | .literal_string | .literal_boolean
  | .type_version_specifier | .op2_log | .op2_cmp | .op2_bit | .op2_add | .op2_mul | .op2_exp | .statement_directive => 1
  | .type_primitive_saturated | .literal_real_exponent_notation | .statement_padding_field => 2
  | .type_primitive | .literal_real => 3
  | .type_scalar | .literal => 4
  | .type_array_variable_inclusive | .type_array_variable_exclusive | .type_array_fixed | .statement_constant => 5
  | .type_array => 6
  | .dtype => 7
  | .expression_atom | .statement_field => 8
  | .ex_attribute | .statement_attribute => 9
  | .ex_exponential | .statement => 10
  | .ex_inversion => 11
  | .ex_multiplicative => 12
  | .ex_additive => 13
  | .ex_bitwise => 14
  | .ex_comparison => 15
  | .ex_logical_not => 16
  | .ex_logical | .line => 17
  | .expression | .definition => 18
  | .expression_list => 19
  | _ => 0

theorem dsdl_guarded : dsdl.Guarded Rule.nullable Rule.rank 20 64 where
  nullable := by intro r; cases r <;> decide
  guarded := by intro r; cases r <;> decide
  rank := by intro r; cases r <;> decide
  positive := by decide
  size := by intro r; cases r <;> decide

/-- A depth that is enough for a text: `Verif.Parse.run_enough`. -/
def enough (s : List Char) : Nat := 1 + 64 * 20 + 64 * 21 * s.length

theorem run_enough (r : Rule) (s : List Char) : run dsdl s (enough s) (.rule r) s ≠ .timeout := by
  refine run_ends dsdl_guarded (k := 20) (le_refl _) ?_ ?_
  · simp only [Peg.guarded, decide_eq_true_eq]; exact dsdl_guarded.rank r
  · simp [Peg.depth, Peg.size, enough]

/-- `DsdlParser::parse(Rule::definition, dsdl)` (canadensis_dsdl_parser/src/lib.rs L48-49): the pairs, or an error. -/
def parsePairs (s : List Char) : Option (List (Pair Rule)) :=
  match run dsdl s (enough s) (.rule .definition) s with
  | .ok ps _ => some ps
  | _ => none

theorem parsePairs_some {s ps} : parsePairs s = some ps ↔ ∃ rest, Ok dsdl s (.rule .definition) s ps rest := by
  unfold parsePairs
  constructor
  · intro h
    cases hr : run dsdl s (enough s) (.rule .definition) s with
    | timeout => rw [hr] at h; cases h
    | fail => rw [hr] at h; cases h
    | ok qs rest => rw [hr] at h; cases h; exact ⟨rest, _, hr⟩
  · rintro ⟨rest, n, h⟩
    have h1 := run_ok_mono h (le_max_left n (enough s))
    rw [run_mono (run_enough .definition s) (le_max_right n (enough s))] at h1
    rw [h1]

end Verif.Parse
