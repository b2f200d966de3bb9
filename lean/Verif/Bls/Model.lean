/-
Model of canadensis_bit_length_set: sets of possible lengths (in bits) of a data type, kept as expression trees.

Lengths and counts are `Nat`: the Rust code uses `u64` and would panic or wrap where a sum or product exceeds it (`Wide.lean` and property C138).
A `BTreeSet<u64>` is the strictly increasing list of its elements.
-/
namespace Verif.Bls

/-- `BTreeSet::insert` on the strictly increasing list of the elements (std, documented behaviour). -/
def insertSet (x : Nat) : List Nat → List Nat
  | [] => [x]
  | y :: ys => if x < y then x :: y :: ys else if x = y then y :: ys else y :: insertSet x ys

/-- `Iterator::collect::<BTreeSet<u64>>` (std): insert every element. -/
def collectSet (l : List Nat) : List Nat := l.foldl (fun s x => insertSet x s) []

/-- `Itertools::combinations_with_replacement` (itertools, documented behaviour): every multiset of `k` elements of the pool,
each once: those with `k` copies of the first element, then with `k - 1` copies and one other, and so on. -/
def combos : List Nat → Nat → List (List Nat)
  | [], k => if k = 0 then [[]] else []
  | x :: xs, k => (List.range (k + 1)).flatMap fun j => (combos xs j).map (List.replicate (k - j) x ++ ·)

/-- `Itertools::multi_cartesian_product` (itertools, documented behaviour): every choice of one element from each list. -/
def product : List (List Nat) → List (List Nat)
  | [] => [[]]
  | l :: ls => l.flatMap fun x => (product ls).map (x :: ·)

/-- canadensis_bit_length_set/src/operator.rs L8-33: `enum Operator`. `RangeRepeat` keeps the inclusive end of the range. -/
inductive Operator where
  | leaf (values : List Nat)
  | padding (child : Operator) (alignment : Nat)
  | concatenate (children : List Operator)
  | repeat (child : Operator) (count : Nat)
  | rangeRepeat (child : Operator) (countEnd : Nat)
  | union (children : List Operator)

/-- canadensis_bit_length_set/src/operator.rs L264-266: `align_up`. The Rust division panics for an alignment of 0, where this
gives 0; the theorems are about sets padded to alignments above 0. -/
def alignUp (value alignment : Nat) : Nat := (value + alignment - 1) / alignment * alignment

/-- `Iterator::min` followed by `unwrap` (the panic for no elements is replaced by 0). -/
def minOf : List Nat → Nat
  | [] => 0
  | x :: xs => xs.foldl Nat.min x

/-- `Iterator::max` followed by `unwrap` (the panic for no elements is replaced by 0). -/
def maxOf : List Nat → Nat
  | [] => 0
  | x :: xs => xs.foldl Nat.max x

namespace Operator

mutual
/-- canadensis_bit_length_set/src/operator.rs L36-48: `Operator::min`; the least element of a leaf is its first (L310-312).
The `unwrap`s of an empty leaf or union are replaced by 0: no function of the interface makes one. -/
def min : Operator → Nat
  | leaf values => values.headD 0
  | padding child alignment => alignUp child.min alignment
  | concatenate children => (minAll children).sum
  | «repeat» child count => child.min * count
  | rangeRepeat _ _ => 0
  | union children => minOf (minAll children)
/-- `children.iter().map(Operator::min)`, canadensis_bit_length_set/src/operator.rs L42 and L46. -/
def minAll : List Operator → List Nat
  | [] => []
  | c :: cs => c.min :: minAll cs
end

mutual
/-- canadensis_bit_length_set/src/operator.rs L50-62: `Operator::max`; the greatest element of a leaf is its last (L314-316). -/
def max : Operator → Nat
  | leaf values => values.getLastD 0
  | padding child alignment => alignUp child.max alignment
  | concatenate children => (maxAll children).sum
  | «repeat» child count => child.max * count
  | rangeRepeat child countEnd => child.max * countEnd
  | union children => maxOf (maxAll children)
/-- `children.iter().map(Operator::max)`, canadensis_bit_length_set/src/operator.rs L56 and L60. -/
def maxAll : List Operator → List Nat
  | [] => []
  | c :: cs => c.max :: maxAll cs
end

/-- canadensis_bit_length_set/src/operator.rs L96 and L113: the number of repetitions that stands for `count` modulo `divisor`. -/
def equivalentCount (count divisor : Nat) : Nat := Nat.min count (divisor + count % divisor)

mutual
/-- canadensis_bit_length_set/src/operator.rs L64-133: `Operator::modulo`. The `debug_assert`s (L76-77, L97, L114) are left out. -/
def modulo (divisor : Nat) : Operator → List Nat
  | leaf values => collectSet (values.map (· % divisor))
  | padding child alignment => collectSet ((child.modulo divisor).map fun value => alignUp value alignment % divisor)
  | concatenate children => collectSet ((product (moduloAll divisor children)).map fun values => values.sum % divisor)
  | «repeat» child count =>
    collectSet ((combos (child.modulo divisor) (equivalentCount count divisor)).map fun values => values.sum % divisor)
  | rangeRepeat child countEnd =>
    collectSet ((List.range (equivalentCount countEnd divisor + 1)).flatMap fun k =>
      (combos (child.modulo divisor) k).map fun values => values.sum % divisor)
  | union children => collectSet (moduloAll divisor children).flatten
/-- `children.iter().map(|child| child.modulo(divisor))`, canadensis_bit_length_set/src/operator.rs L84-85 and L128-130. -/
def moduloAll (divisor : Nat) : List Operator → List (List Nat)
  | [] => []
  | c :: cs => c.modulo divisor :: moduloAll divisor cs
end

mutual
/-- canadensis_bit_length_set/src/operator.rs L136-176: `Operator::expand`. -/
def expand : Operator → List Nat
  | leaf values => values
  | padding child alignment => collectSet (child.expand.map fun length => alignUp length alignment)
  | concatenate children => collectSet ((product (expandAll children)).map List.sum)
  | «repeat» child count => collectSet ((combos child.expand count).map List.sum)
  | rangeRepeat child countEnd =>
    collectSet ((List.range (countEnd + 1)).flatMap fun k => (combos child.expand k).map List.sum)
  | union children => collectSet (expandAll children).flatten
/-- `children.iter().map(Operator::expand)`, canadensis_bit_length_set/src/operator.rs L145-146 and L174. -/
def expandAll : List Operator → List (List Nat)
  | [] => []
  | c :: cs => c.expand :: expandAll cs
end

mutual
/-- canadensis_bit_length_set/src/operator.rs L194-260: `Operator::structural_equal`. -/
def structuralEqual : Operator → Operator → Bool
  | leaf a, leaf b => a == b
  | padding c a, padding c' a' => a == a' && structuralEqual c c'
  | concatenate cs, concatenate cs' => cs.length == cs'.length && structuralEqualAll cs cs'
  | «repeat» c n, «repeat» c' n' => n == n' && structuralEqual c c'
  | rangeRepeat c n, rangeRepeat c' n' => n == n' && structuralEqual c c'
  | union cs, union cs' => cs.length == cs'.length && structuralEqualAll cs cs'
  | _, _ => false
/-- `self_children.iter().zip(other_children.iter()).all(..)`, canadensis_bit_length_set/src/operator.rs L217-221 and L251-255. -/
def structuralEqualAll : List Operator → List Operator → Bool
  | c :: cs, c' :: cs' => structuralEqual c c' && structuralEqualAll cs cs'
  | _, _ => true
end

end Operator

/-- canadensis_bit_length_set/src/lib.rs L16-19: `BitLengthSet`, a structure with the operator as its only field. -/
structure BitLengthSet where
  operator : Operator

namespace BitLengthSet

/-- canadensis_bit_length_set/src/lib.rs L23-29: `single`. -/
def single (length : Nat) : BitLengthSet := ⟨.leaf (insertSet length [])⟩

/-- canadensis_bit_length_set/src/lib.rs L33-45: `from_lengths`. -/
def fromLengths (values : List Nat) : Option BitLengthSet :=
  if (collectSet values).isEmpty then none else some ⟨.leaf (collectSet values)⟩

/-- canadensis_bit_length_set/src/lib.rs L50-58: `from_length_set`. The argument is a `BTreeSet`: a strictly increasing list. -/
def fromLengthSet (values : List Nat) : Option BitLengthSet :=
  if values.isEmpty then none else some ⟨.leaf values⟩

/-- canadensis_bit_length_set/src/lib.rs L75-77: `min_value`. -/
def minValue (s : BitLengthSet) : Nat := s.operator.min

/-- canadensis_bit_length_set/src/lib.rs L93-95: `max_value`. -/
def maxValue (s : BitLengthSet) : Nat := s.operator.max

/-- canadensis_bit_length_set/src/lib.rs L112-114: `is_fixed_size`. -/
def isFixedSize (s : BitLengthSet) : Bool := s.minValue == s.maxValue

/-- canadensis_bit_length_set/src/lib.rs L378-384: `Rem<u64>`. -/
def rem (s : BitLengthSet) (divisor : Nat) : BitLengthSet := ⟨.leaf (s.operator.modulo divisor)⟩

/-- canadensis_bit_length_set/src/lib.rs L154-157: `is_aligned`. -/
def isAligned (s : BitLengthSet) (bitLength : Nat) : Bool :=
  (s.rem bitLength).isFixedSize && (s.rem bitLength).minValue == 0

/-- canadensis_bit_length_set/src/lib.rs L137-139: `is_byte_aligned`. -/
def isByteAligned (s : BitLengthSet) : Bool := s.isAligned 8

/-- canadensis_bit_length_set/src/lib.rs L177-179: `expand`. -/
def expand (s : BitLengthSet) : List Nat := s.operator.expand

/-- canadensis_bit_length_set/src/lib.rs L194-201: `pad_to_alignment`. -/
def padToAlignment (s : BitLengthSet) (alignment : Nat) : BitLengthSet := ⟨.padding s.operator alignment⟩

/-- canadensis_bit_length_set/src/lib.rs L232-239: `repeat`. -/
def repeatTimes (s : BitLengthSet) (count : Nat) : BitLengthSet := ⟨.repeat s.operator count⟩

/-- canadensis_bit_length_set/src/lib.rs L267-274: `repeat_range`. -/
def repeatRange (s : BitLengthSet) (countEnd : Nat) : BitLengthSet := ⟨.rangeRepeat s.operator countEnd⟩

/-- canadensis_bit_length_set/src/lib.rs L296-302 and L388-397: `concatenate` (by `extend`). -/
def concatenate (s : BitLengthSet) (others : List BitLengthSet) : BitLengthSet :=
  ⟨.concatenate (s.operator :: others.map (·.operator))⟩

/-- canadensis_bit_length_set/src/lib.rs L318-328: `unite`. -/
def unite (s : BitLengthSet) (others : List BitLengthSet) : BitLengthSet :=
  ⟨.union (s.operator :: others.map (·.operator))⟩

/-- canadensis_bit_length_set/src/lib.rs L346-350: `Default`. -/
def default : BitLengthSet := single 0

/-- canadensis_bit_length_set/src/lib.rs L402-411: `PartialEq::eq`. -/
def eq (a b : BitLengthSet) : Bool :=
  if a.operator.structuralEqual b.operator then true else a.expand == b.expand

/-- `Ord` of `BTreeSet` (std): lexicographic on the increasing sequences of elements. -/
def cmpSet : List Nat → List Nat → Ordering
  | [], [] => .eq
  | [], _ :: _ => .lt
  | _ :: _, [] => .gt
  | a :: as, b :: bs => if a < b then .lt else if b < a then .gt else cmpSet as bs

/-- canadensis_bit_length_set/src/lib.rs L421-425: `Ord::cmp`. -/
def cmp (a b : BitLengthSet) : Ordering := cmpSet a.expand b.expand

end BitLengthSet

end Verif.Bls
