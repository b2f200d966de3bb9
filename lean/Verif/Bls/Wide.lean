import Verif.Bls.Model
/-
Bit length sets with the arithmetic of `u64`: `Verif.Bls.Model` has the same functions with numbers of any size.

`checks` is whether the program was built with overflow checks, `debug` whether it was built with debug assertions. `none` is a panic. `usize` has 64 bits, so that
the conversions to it (canadensis_bit_length_set/src/operator.rs L103-106, L121-122, L155, L166) do not fail.
-/
namespace Verif.Bls

/-- The result of an operation on `u64` whose exact result is `n` (std): a panic or the lowest 64 bits if it does not fit. -/
def fit (checks : Bool) (n : Nat) : Option Nat := if n < 2 ^ 64 then some n else if checks then none else some (n % 2 ^ 64)

/-- `Iterator::sum::<u64>` (std; used in canadensis_bit_length_set/src/operator.rs L42, L56, L91, L108, L124, L150, L157, L168): it has the overflow checks of the crate. -/
def sumW (checks : Bool) (ns : List Nat) : Option Nat := ns.foldlM (fun total n => fit checks (total + n)) 0

/-- canadensis_bit_length_set/src/operator.rs L264-266: `align_up`. `div_ceil` panics for an alignment of 0; its result fits. -/
def alignUpW (checks : Bool) (value alignment : Nat) : Option Nat := if alignment = 0 then none else fit checks (alignUp value alignment)

namespace Operator

mutual
/-- canadensis_bit_length_set/src/operator.rs L36-48: `Operator::min`. -/
def minW (checks : Bool) : Operator → Option Nat
  | leaf values => values.head?
  | padding child alignment => (child.minW checks).bind fun m => alignUpW checks m alignment
  | concatenate children => (minAllW checks children).bind (sumW checks)
  | «repeat» child count => (child.minW checks).bind fun m => fit checks (m * count)
  | rangeRepeat _ _ => some 0
  | union children => (minAllW checks children).bind fun ms => if ms = [] then none else some (minOf ms)
/-- `children.iter().map(Operator::min)`, canadensis_bit_length_set/src/operator.rs L42 and L46. -/
def minAllW (checks : Bool) : List Operator → Option (List Nat)
  | [] => some []
  | c :: cs => (c.minW checks).bind fun m => (minAllW checks cs).map (m :: ·)
end

mutual
/-- canadensis_bit_length_set/src/operator.rs L50-62: `Operator::max`. -/
def maxW (checks : Bool) : Operator → Option Nat
  | leaf values => values.getLast?
  | padding child alignment => (child.maxW checks).bind fun m => alignUpW checks m alignment
  | concatenate children => (maxAllW checks children).bind (sumW checks)
  | «repeat» child count => (child.maxW checks).bind fun m => fit checks (m * count)
  | rangeRepeat child countEnd => (child.maxW checks).bind fun m => fit checks (m * countEnd)
  | union children => (maxAllW checks children).bind fun ms => if ms = [] then none else some (maxOf ms)
/-- `children.iter().map(Operator::max)`, canadensis_bit_length_set/src/operator.rs L56 and L60. -/
def maxAllW (checks : Bool) : List Operator → Option (List Nat)
  | [] => some []
  | c :: cs => (c.maxW checks).bind fun m => (maxAllW checks cs).map (m :: ·)
end

/-- canadensis_bit_length_set/src/operator.rs L96-97 and L113-114: the number of repetitions that stands for `count`. -/
def equivalentCountW (checks debug : Bool) (count divisor : Nat) : Option Nat :=
  (fit checks (divisor + count % divisor)).bind fun n =>
    if debug && Nat.min count n % divisor ≠ count % divisor then none else some (Nat.min count n)

/-- `values.into_iter().sum::<u64>() % divisor`, canadensis_bit_length_set/src/operator.rs L91-92, L108 and L124. -/
def sumModW (checks : Bool) (divisor : Nat) (values : List Nat) : Option Nat := (sumW checks values).map (· % divisor)

/-- The body of the closure in canadensis_bit_length_set/src/operator.rs L75-79. `max` is of the padded set, `lcm` of the alignment and the divisor (`num_integer::lcm`). -/
def padModW (checks debug : Bool) (max lcm alignment divisor value : Nat) : Option Nat :=
  if debug && (value > max || value ≥ lcm) then none else (alignUpW checks value alignment).map (· % divisor)

mutual
/-- canadensis_bit_length_set/src/operator.rs L64-133: `Operator::modulo`. -/
def moduloW (checks debug : Bool) (divisor : Nat) : Operator → Option (List Nat)
  | leaf values => if divisor = 0 ∧ values ≠ [] then none else some (collectSet (values.map (· % divisor)))
  | padding child alignment =>
    ((padding child alignment).maxW checks).bind fun max => (fit checks (Nat.lcm alignment divisor)).bind fun lcm =>
      (child.moduloW checks debug divisor).bind fun values => (values.mapM (padModW checks debug max lcm alignment divisor)).map collectSet
  | concatenate children =>
    (moduloAllW checks debug divisor children).bind fun mods => ((product mods).mapM (sumModW checks divisor)).map collectSet
  | «repeat» child count =>
    (equivalentCountW checks debug count divisor).bind fun n => (child.moduloW checks debug divisor).bind fun values =>
      ((combos values n).mapM (sumModW checks divisor)).map collectSet
  | rangeRepeat child countEnd =>
    (child.moduloW checks debug divisor).bind fun values => (equivalentCountW checks debug countEnd divisor).bind fun n =>
      (((List.range (n + 1)).flatMap fun k => combos values k).mapM (sumModW checks divisor)).map collectSet
  | union children => (moduloAllW checks debug divisor children).map fun mods => collectSet mods.flatten
/-- `children.iter().map(|child| child.modulo(divisor))`, canadensis_bit_length_set/src/operator.rs L84-85 and L128-130. -/
def moduloAllW (checks debug : Bool) (divisor : Nat) : List Operator → Option (List (List Nat))
  | [] => some []
  | c :: cs => (c.moduloW checks debug divisor).bind fun m => (moduloAllW checks debug divisor cs).map (m :: ·)
end

mutual
/-- canadensis_bit_length_set/src/operator.rs L136-176: `Operator::expand`. -/
def expandW (checks : Bool) : Operator → Option (List Nat)
  | leaf values => some values
  | padding child alignment => (child.expandW checks).bind fun values => (values.mapM fun length => alignUpW checks length alignment).map collectSet
  | concatenate children => (expandAllW checks children).bind fun sets => ((product sets).mapM (sumW checks)).map collectSet
  | «repeat» child count => (child.expandW checks).bind fun values => ((combos values count).mapM (sumW checks)).map collectSet
  | rangeRepeat child countEnd =>
    (child.expandW checks).bind fun values => (((List.range (countEnd + 1)).flatMap fun k => combos values k).mapM (sumW checks)).map collectSet
  | union children => (expandAllW checks children).map fun sets => collectSet sets.flatten
/-- `children.iter().map(Operator::expand)`, canadensis_bit_length_set/src/operator.rs L145-146 and L174. -/
def expandAllW (checks : Bool) : List Operator → Option (List (List Nat))
  | [] => some []
  | c :: cs => (c.expandW checks).bind fun m => (expandAllW checks cs).map (m :: ·)
end

end Operator

namespace BitLengthSet

/-- canadensis_bit_length_set/src/lib.rs L75-77: `min_value`. -/
def minValueW (checks : Bool) (s : BitLengthSet) : Option Nat := s.operator.minW checks

/-- canadensis_bit_length_set/src/lib.rs L93-95: `max_value`. -/
def maxValueW (checks : Bool) (s : BitLengthSet) : Option Nat := s.operator.maxW checks

/-- canadensis_bit_length_set/src/lib.rs L112-114: `is_fixed_size`. -/
def isFixedSizeW (checks : Bool) (s : BitLengthSet) : Option Bool :=
  (s.minValueW checks).bind fun a => (s.maxValueW checks).map fun b => a == b

/-- canadensis_bit_length_set/src/lib.rs L378-384: `Rem<u64>`. -/
def remW (checks debug : Bool) (s : BitLengthSet) (divisor : Nat) : Option BitLengthSet := (s.operator.moduloW checks debug divisor).bind fun values =>
  if debug && values = [] then none else some ⟨.leaf values⟩

/-- canadensis_bit_length_set/src/lib.rs L154-157: `is_aligned`. -/
def isAlignedW (checks debug : Bool) (s : BitLengthSet) (bitLength : Nat) : Option Bool :=
  (s.remW checks debug bitLength).bind fun r => (r.isFixedSizeW checks).bind fun fixed =>
    if fixed then (r.minValueW checks).map fun a => a == 0 else some false

/-- canadensis_bit_length_set/src/lib.rs L177-179: `expand`. -/
def expandW (checks : Bool) (s : BitLengthSet) : Option (List Nat) := s.operator.expandW checks

end BitLengthSet

end Verif.Bls
