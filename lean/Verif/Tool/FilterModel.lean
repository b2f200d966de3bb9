import Verif.FilterConfig.Model
import Verif.Parse.Ast

/-!
The command-line program that reduces a list of message IDs to hardware filters: `canadensis_filter_config/bin/optimize_filters.rs`.
-/

namespace Verif.Tool

open Verif.FilterConfig
open Verif.Parse (fromStrRadix)

/-- Why the program stops: `UsageError`, `CanIdError`, `NumberFormatError` (canadensis_filter_config/bin/optimize_filters.rs L71-91, L107-119) and the
standard library's `ParseIntError`. -/
inductive FilterError where
  | usage | canId | numberFormat | parseInt
deriving DecidableEq, Repr

/-- What a run of the program shows: the text it prints, with the exit status 0; an error, with the exit status -1; or a panic
(canadensis_filter_config/bin/optimize_filters.rs L18-26). -/
inductive FilterRun where
  | ok (text : List Char)
  | err (e : FilterError)
  | panic
deriving DecidableEq, Repr

/-- `parse_hex_with_prefix` (canadensis_filter_config/bin/optimize_filters.rs L93-105), on characters instead of bytes. The text behind the two bytes `0x`
is always UTF-8. A text of fewer than three bytes with the prefix is `0x`; any other has another prefix, which is the same error. -/
def parseHexWithPrefix (input : List Char) : Except FilterError (BitVec 32) :=
  match input with
  | '0' :: 'x' :: c :: cs =>
    match fromStrRadix 16 (2 ^ 32 - 1) (c :: cs) with
    | some n => .ok (BitVec.ofNat 32 n)
    | none => .error .parseInt
  | _ => .error .numberFormat

/-- `get_args` behind the name of the program (canadensis_filter_config/bin/optimize_filters.rs L53-69). `usize` has 64 bits. The arguments are text:
`env::args` panics for others. -/
def getArgs (args : List (List Char)) : Except FilterError (Nat × List (BitVec 32)) :=
  match args with
  | [] => .error .usage
  | first :: rest =>
    match fromStrRadix 10 (2 ^ 64 - 1) first with
    | none => .error .parseInt
    | some maxFilters =>
      match rest.mapM parseHexWithPrefix with
      | .error e => .error e
      | .ok ids => if ids.any fun id => id &&& ~~~0x1fffffff#32 != 0#32 then .error .canId else .ok (maxFilters, ids)

/-- `{:#010x}`: the prefix and at least eight digits (std; used in canadensis_filter_config/bin/optimize_filters.rs L45). -/
def hexWithPrefix (x : BitVec 32) : List Char :=
  '0' :: 'x' :: (List.replicate (8 - (Nat.toDigits 16 x.toNat).length) '0' ++ Nat.toDigits 16 x.toNat)

/-- A line of `print_filters` (canadensis_filter_config/bin/optimize_filters.rs L45). -/
def filterLine (f : Filter) : List Char := hexWithPrefix f.id ++ ' ' :: ' ' :: ' ' :: hexWithPrefix f.mask

/-- `print_filters` (canadensis_filter_config/bin/optimize_filters.rs L42-47). -/
def printFilters (filters : List Filter) : List Char :=
  "ID         | Mask\n".toList ++ filters.flatMap fun f => filterLine f ++ ['\n']

/-- `main` and `run` (canadensis_filter_config/bin/optimize_filters.rs L18-40). `debug` is whether the debug assertions are on. -/
def optimizeFilters (debug : Bool) (args : List (List Char)) : FilterRun :=
  match getArgs args with
  | .error e => .err e
  | .ok (maxFilters, ids) =>
    match optimize debug (ids.map Filter.exactMatch) maxFilters with
    | none => .panic
    | some (filters, _) => .ok (printFilters filters)

end Verif.Tool
